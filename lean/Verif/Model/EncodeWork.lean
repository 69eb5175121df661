import Verif.Model.Encoder
import Verif.Model.Work

/-!
# The work done by `EncodeChunk` (src/vcencoder.cc and what it calls)

The functions of `Model.Writer`, `Model.JsonWriter` and `Model.Encoder` that `EncodeChunk` uses again, each returning also a number of
steps. `Verif.Proof.EncodeWork` shows that without the numbers they are the same functions.

A step is one iteration of a loop, one byte appended to a string, one byte summed by the checksum, or one element of a table or of the
address cache written. Between two steps the program executes a bounded number of statements without loops. What the engine does is
counted in `Model.Work`; here each of its operations is taken for as many steps as it has iterations (`Work.steps`).

Not counted: what a `std::string` does to grow (`append` takes an amortized constant time per byte), log messages, and the building of the
instruction map, which `StartEncoding` has done before.
-/

namespace Vcd

/-- A result together with the steps taken for it. -/
abbrev Timed (α : Type) := Except Fault (α × Nat)

/-- Steps taken before those of a computation. -/
def Timed.after {α : Type} (n : Nat) (x : Timed α) : Timed α := x.map fun r => (r.1, n + r.2)

/-- One computation after the other: the steps of both. -/
def Timed.andThen {α β : Type} (x : Timed α) (f : α → Timed β) : Timed β :=
  match x with
  | .error e => .error e
  | .ok (a, n) => Timed.after n (f a)

/-- A computation without loops. -/
def Timed.free {α : Type} (x : Except Fault α) : Timed α := x.map fun a => (a, 0)

open Timed

/-! ## Integers -/

/-- `encodeVarintLoop` (src/varint_bigendian.cc:73-78). -/
def encodeVarintLoopW : (fuel : Nat) → Nat → Bytes → Option Bytes × Nat
  | _, 0, acc => (some acc, 0)
  | 0, _ + 1, _ => (none, 0)
  | fuel + 1, v + 1, acc =>
    let r := encodeVarintLoopW fuel ((v + 1) >>> 7) (UInt8.ofNat (((v + 1) &&& 0x7F) ||| 0x80) :: acc)
    (r.1, 1 + r.2)

/-- `encodeVarint` (src/varint_bigendian.cc:59-105): the iterations, and the bytes appended. -/
def encodeVarintW (maxBytes : Nat) (v : Int) : Option Bytes × Nat :=
  if v < 0 then (some [], 0)
  else
    let r := encodeVarintLoopW (maxBytes - 1) (v.toNat >>> 7) [UInt8.ofNat (v.toNat &&& 0x7F)]
    (r.1, r.2 + (r.1.getD []).length)

/-- `varintLengthLoop` (src/varint_bigendian.cc:116-120). -/
def varintLengthLoopW : (fuel : Nat) → Nat → Nat → Nat × Nat
  | 0, _, len => (len, 0)
  | fuel + 1, v, len =>
    let v := v >>> 7
    if v = 0 then (len + 1, 1)
    else
      let r := varintLengthLoopW fuel v (len + 1)
      (r.1, 1 + r.2)

/-- `varintLength` (src/varint_bigendian.cc:108-122). -/
def varintLengthW (v : Int) : Nat × Nat :=
  if v < 0 then (0, 0) else varintLengthLoopW (v.toNat + 1) v.toNat 0

/-! ## The address cache -/

/-- `AddrCache.init` (src/addrcache.cc:71-90). -/
def AddrCache.initW (c : AddrCache) : Option AddrCache × Nat :=
  if c.nearSize + c.sameSize > 254 then (none, 0)
  else (some
    { c with
      near := if c.nearSize > 0 then List.replicate c.nearSize 0 else c.near
      same := if c.sameSize > 0 then List.replicate (c.sameSize * 256) 0 else c.same
      nextSlot := 0 }, c.nearSize + c.sameSize * 256)

/-- `AddrCache.encodeNearLoop` (src/addrcache.cc:185-192). -/
def AddrCache.encodeNearLoopW (address : Nat) : (i : Nat) → (rest : List Nat) → Nat × Nat → (Nat × Nat) × Nat
  | _, [], best => (best, 0)
  | i, nearAddress :: rest, (bestMode, bestEnc) =>
    let r :=
      if nearAddress ≤ address ∧ address - nearAddress < bestEnc then
        encodeNearLoopW address (i + 1) rest ((2 + i) % 256, address - nearAddress)
      else encodeNearLoopW address (i + 1) rest (bestMode, bestEnc)
    (r.1, 1 + r.2)

/-- `AddrCache.encodeAddress` (src/addrcache.cc:141-197): the only loop is the one over the NEAR cache. -/
def AddrCache.encodeAddressW (c : AddrCache) (address here : Int) : AddrCache.EncodeResult × Nat :=
  if address < 0 then (.fault .assertion, 0)
  else if address ≥ here then (.fault .assertion, 0)
  else
    let a := address.toNat
    let h := here.toNat
    let rest : Unit → AddrCache.EncodeResult × Nat := fun _ =>
      let best := if h - a < a then (1, h - a) else (0, a)
      if c.near.length < c.nearSize then (.fault .cacheOob, 0)
      else
        let best := encodeNearLoopW a 0 (c.near.take c.nearSize) best
        match c.update a with
        | none => (.fault .cacheOob, best.2)
        | some c' => (.ok best.1.1 best.1.2 c', best.2)
    if c.sameSize > 0 then
      let pos := a % (c.sameSize * 256)
      match c.same[pos]? with
      | none => (.fault .cacheOob, 0)
      | some s =>
        if s = a then
          match c.update a with
          | none => (.fault .cacheOob, 0)
          | some c' => (.ok ((c.firstSameMode + (pos / 256) % 256) % 256) (pos % 256) c', 0)
        else rest ()
    else rest ()

/-- `AddrCache.addressBytes` (src/encodetable.cc:260-264): the bytes appended, and the steps to make them. -/
def AddrCache.addressBytesW (c : AddrCache) (mode : Nat) (encoded : Nat) : Option Bytes × Nat :=
  if c.isSameMode mode then (some [UInt8.ofNat encoded], 1)
  else encodeVarintW maxBytes32 encoded

/-! ## The code table writer -/

namespace Writer

/-- `init` (src/encodetable.cc:102-120). -/
def initW (w : Writer) (dictionarySize : Nat) : Timed (Bool × Writer) :=
  let w := { w with dictionarySize }
  let w? : Option Writer :=
    match w.map with
    | some _ => some w
    | none => (InstructionMap.build w.table w.maxMode).map fun m => { w with map := some m }
  match w? with
  | none => .error .oobRead
  | some w =>
    match w.cache.initW with
    | (none, n) => .ok ((false, w), n)
    | (some cache, n) => .ok ((true, { w with cache, targetLength := 0, lastOpcode := none }), n)

/-- `sizeBytes` (src/encodetable.cc:278-286). -/
def sizeBytesW (size : Nat) : Timed Bytes :=
  if toInt32 size < 0 then .error .assertion
  else match encodeVarintW maxBytes32 (toInt32 size) with
  | (none, _) => .error .bufferOverrun
  | (some bs, n) => .ok (bs, n)

/-- `sizeLength` (src/encodetable.cc:274-276). -/
def sizeLengthW (size : Nat) : Nat × Nat := varintLengthW (toInt32 size)

/-- `sizeOperand` (src/encodetable.cc:211, 232). -/
def sizeOperandW (explicit : Bool) (size : Nat) : Timed Bytes :=
  if explicit then sizeBytesW size else .ok ([], 0)

/-- `encodeInstruction` (src/encodetable.cc:171-235): one step for the opcode, and those for the size. -/
def encodeInstructionW (w : Writer) (inst : UInt8) (size mode : Nat) : Timed Writer :=
  match w.map with
  | none => .error .assertion
  | some m =>
    match w.compound m inst size mode with
    | .error f => .error f
    | .ok (some (i, op, explicit)) =>
      andThen (sizeOperandW explicit size) fun bs =>
        .ok ({ w with inst := w.inst.set i op ++ bs, lastOpcode := none }, 1)
    | .ok none =>
      match lookupFirst m inst size mode with
      | .error f => .error f
      | .ok (op, explicit) =>
        andThen (sizeOperandW explicit size) fun bs =>
          .ok ({ w with inst := w.inst ++ [op] ++ bs, lastOpcode := some w.inst.length }, 1)

/-- `add` (src/encodetable.cc:237-241). -/
def addW (w : Writer) (bytes : Bytes) : Timed Writer :=
  andThen (w.encodeInstructionW vcdAdd bytes.length 0) fun w => .ok ((w.appendData bytes).advance bytes.length, bytes.length)

/-- `run` (src/encodetable.cc:268-272). -/
def runW (w : Writer) (size : Nat) (byte : UInt8) : Timed Writer :=
  andThen (w.encodeInstructionW vcdRun size 0) fun w => .ok ((w.appendData [byte]).advance size, 1)

/-- `copy` (src/encodetable.cc:243-266). -/
def copyW (w : Writer) (offset : Int) (size : Nat) : Timed Writer :=
  match w.map with
  | none => .error .assertion
  | some _ =>
    match w.cache.encodeAddressW offset (toInt32 (w.dictionarySize + w.targetLength)) with
    | (.fault f, _) => .error f
    | (.ok mode encoded cache, n) =>
      after n <| andThen ({ w with cache }.encodeInstructionW vcdCopy size mode) fun w =>
        match w.cache.addressBytesW mode encoded with
        | (none, _) => .error .bufferOverrun
        | (some bytes, n) => .ok ((w.appendAddr bytes).advance size, n)

/-- `checksumLength` (src/encodetable.cc:300-303). -/
def checksumLengthW : Option Nat → Nat × Nat
  | some c => varintLengthW (c : Int)
  | none => (0, 0)

/-- `deltaLength` (src/encodetable.cc:290-305). -/
def deltaLengthW (w : Writer) : Nat × Nat :=
  let target := sizeLengthW w.targetLength
  let data := sizeLengthW w.data.length
  let inst := sizeLengthW w.inst.length
  let addr := sizeLengthW w.addr.length
  let checksum := checksumLengthW w.checksum
  (target.1 + 1 + data.1 + inst.1 + addr.1 + w.data.length + w.inst.length + w.addr.length + checksum.1,
    target.2 + data.2 + inst.2 + addr.2 + checksum.2)

/-- `checksumBytes` (src/encodetable.cc:350-353). -/
def checksumBytesW : Option Nat → Timed Bytes
  | none => .ok ([], 0)
  | some c =>
    match encodeVarintW maxBytes64 (c : Int) with
    | (none, _) => .error .bufferOverrun
    | (some bs, n) => .ok (bs, n)

/-- `deltaBytes` (src/encodetable.cc:340-360): the integers, the delta indicator, and the bytes of the sections. -/
def deltaBytesW (w : Writer) : Timed Bytes :=
  andThen (sizeBytesW w.targetLength) fun target =>
  andThen (sizeBytesW w.data.length) fun dataLength =>
  andThen (sizeBytesW w.inst.length) fun instLength =>
  andThen (sizeBytesW w.addr.length) fun addrLength =>
  andThen (checksumBytesW w.checksum) fun checksum =>
  .ok (target ++ [0x00] ++ dataLength ++ instLength ++ addrLength ++ checksum ++ w.data ++ w.inst ++ w.addr,
    1 + w.data.length + w.inst.length + w.addr.length)

/-- `windowBytes` (src/encodetable.cc:312-381). -/
def windowBytesW (w : Writer) : Timed Bytes :=
  let indicator : UInt8 := if w.checksum.isSome then 0x05 else 0x01
  andThen (sizeBytesW w.dictionarySize) fun dictionarySize =>
  andThen (sizeBytesW 0) fun position =>
  after w.deltaLengthW.2 <| andThen (sizeBytesW w.deltaLengthW.1) fun length =>
  andThen w.deltaBytesW fun delta =>
  if w.deltaLengthW.1 ≠ delta.length then .error .assertion
  else .ok ([indicator] ++ dictionarySize ++ position ++ length ++ delta, 1)

/-- `output` (src/encodetable.cc:307-386). -/
def outputW (w : Writer) : Timed (Bytes × Writer) :=
  andThen (if w.inst = [] then .ok ([], 0) else w.windowBytesW) fun out =>
  andThen ((if w.inst = [] then w else { w with data := [], inst := [], addr := [] }).initW w.dictionarySize) fun r =>
  match r with
  | (false, _) => .error .assertion
  | (true, w) => .ok ((out, w), 0)

/-- One call from the engine. -/
def callW (w : Writer) : CoderCall → Timed (Bytes × Writer)
  | .add bytes => andThen (w.addW bytes) fun w => .ok (([], w), 0)
  | .copy offset size => andThen (w.copyW offset size) fun w => .ok (([], w), 0)
  | .run size byte => andThen (w.runW size byte) fun w => .ok (([], w), 0)
  | .output => w.outputW

/-- A sequence of calls. -/
def callsW (w : Writer) : List CoderCall → Timed (Bytes × Writer)
  | [] => .ok (([], w), 0)
  | c :: cs =>
    andThen (w.callW c) fun r => andThen (r.2.callsW cs) fun s => .ok ((r.1 ++ s.1, s.2), 0)

end Writer

/-! ## The JSON writer -/

namespace JsonWriter

/-- `escape` (src/jsonwriter.cc:48-72): one step for each byte, and for each one appended. -/
def escapeW : Bytes → Bytes × Nat
  | [] => ([], 0)
  | c :: data =>
    let r := escapeW data
    (escapeByte c ++ r.1, 1 + (escapeByte c).length + r.2)

/-- `decimalLoop` (`operator<<`): one step for each digit. -/
def decimalLoopW : (fuel : Nat) → Nat → Bytes → Bytes × Nat
  | 0, _, acc => (acc, 0)
  | fuel + 1, n, acc =>
    let acc := UInt8.ofNat (0x30 + n % 10) :: acc
    if n / 10 = 0 then (acc, 1)
    else
      let r := decimalLoopW fuel (n / 10) acc
      (r.1, 1 + r.2)

/-- `decimal` (`operator<<`). -/
def decimalW (n : Nat) : Bytes × Nat := decimalLoopW (n + 1) n []

/-- `decimalInt` (`operator<<`). -/
def decimalIntW (n : Int) : Bytes × Nat :=
  if n < 0 then (0x2D :: (decimalW n.natAbs).1, 1 + (decimalW n.natAbs).2) else decimalW n.toNat

/-- `push` (src/jsonwriter.cc:75-78, 86-89, 97-100): one step for the comma and one for each byte. -/
def pushW (w : JsonWriter) (bytes : Bytes) : JsonWriter × Nat := (w.push bytes, 1 + bytes.length)

/-- One call from the engine (src/jsonwriter.cc:36-40, 74-105). The bytes of a RUN are made, and then appended. -/
def callW (w : JsonWriter) : CoderCall → (Bytes × JsonWriter) × Nat
  | .add bytes =>
    let e := escapeW bytes
    let r := w.pushW ([0x22] ++ e.1 ++ [0x22])
    (([], r.1), e.2 + r.2)
  | .copy offset size =>
    let a := decimalIntW offset
    let b := decimalW size
    let r := w.pushW (a.1 ++ [0x2C] ++ b.1)
    (([], r.1), a.2 + b.2 + r.2)
  | .run size byte =>
    let r := w.pushW ([0x22] ++ List.replicate size byte ++ [0x22])
    (([], r.1), size + r.2)
  | .output => (w.flush, w.output.length)

/-- A sequence of calls. -/
def callsW (w : JsonWriter) : List CoderCall → (Bytes × JsonWriter) × Nat
  | [] => (([], w), 0)
  | c :: cs =>
    let r := w.callW c
    let rs := r.1.2.callsW cs
    ((r.1.1 ++ rs.1.1, rs.1.2), r.2 + rs.2)

/-- `isAscii` (src/jsonwriter.cc:132-139): it stops at the first byte that is not ASCII. -/
def isAsciiW : Bytes → Bool × Nat
  | [] => (true, 0)
  | c :: data =>
    if c < 128 then
      let r := isAsciiW data
      (r.1, 1 + r.2)
    else (false, 1)

end JsonWriter

/-! ## The streaming encoder -/

/-- The steps of the engine: a comparison of blocks or a hash value is a loop over 16 bytes, the other operations have no loops. -/
def Work.steps (w : Work) : Nat := w.searches + 16 * w.blocks + w.bytes + 16 * w.hashes + w.adds

/-- The steps to make the tables for matches in the target (src/vcdiffengine.cc:152-163, src/blockhash.cc:80-105): at most 65 iterations
of `CalcTableSize` (src/blockhash.cc:118-128), and the elements of the three tables. -/
def Engine.targetTableSteps (lookForTargetMatches : Bool) (target : Bytes) : Nat :=
  if lookForTargetMatches then 65 + calcTableSize target.length + 2 * (target.length / kBlockSize) else 0

/-- `chunk` (src/vcencoder.cc:136-153). `ComputeAdler32` takes a step for each byte. -/
def Encoder.chunkW (e : Encoder) (data : Bytes) : Timed (Bool × Bytes × Encoder) :=
  if !e.allowed then .ok ((false, [], e), 0)
  else
    match e.coder with
    | .binary w =>
      let w := if e.flags &&& 2 ≠ 0 then w.addChecksum (computeAdler32 data) else w
      after (if e.flags &&& 2 ≠ 0 then data.length else 0) <|
      match e.engine.encodeW e.lookForTargetMatches data with
      | .error f => .error f
      | .ok (calls, work) =>
        after (Engine.targetTableSteps e.lookForTargetMatches data + work.steps) <|
        andThen (w.callsW calls) fun r => .ok ((true, r.1, { e with coder := .binary r.2 }), 0)
    | .json w =>
      if !(JsonWriter.isAsciiW data).1 then .ok ((false, [], e), (JsonWriter.isAsciiW data).2)
      else
        match e.engine.encodeW e.lookForTargetMatches data with
        | .error f => .error f
        | .ok (calls, work) =>
          let r := w.callsW calls
          .ok ((true, r.1.1, { e with coder := .json r.1.2 }),
            (JsonWriter.isAsciiW data).2 + (if e.flags &&& 2 ≠ 0 then data.length else 0) +
              Engine.targetTableSteps e.lookForTargetMatches data + work.steps + r.2)

end Vcd
