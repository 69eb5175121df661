import Verif.Model.Encoder

/-!
# Release builds of the encoder: `VCD_DFATAL` with `NDEBUG` (src/logging.h:25-46)

`VCD_DFATAL << ... << VCD_ENDL` logs a message. In a build without `NDEBUG` that is followed by `exit(1)`; the modules below this
one model that, as the fault `assertion`. In a build with `NDEBUG` the code after it is executed. The functions of this module
model such a build: they follow the functions with the same names outside of the namespace `Release`, and differ in what
comes after a `VCD_DFATAL`. (Functions that neither have a `VCD_DFATAL` nor call one that has are not repeated.)

The JSON writer has no `VCD_DFATAL`. Not modelled: src/blockhash.cc:59 (`Init` of a `BlockHash` is called once, by the functions that
construct one) and src/rolling_hash.h:110 (the table is there after the `Init` of any `VCDiffEngine`, and `EncodeInternal` returns
before it constructs a `RollingHash` if its engine has not been initialised).
-/

namespace Vcd

/-- `HashedDictionary::Init` (src/google/vcencoder.h:38-60, src/vcencoder.cc:57-65) calls `VCDiffEngine::Init`
(src/vcdiffengine.cc:44-58): the result and the new state. A second call (lines 45-49) is `VCD_DFATAL`. -/
def Engine.initCall (e : Engine) : Except Fault (Bool × Engine) :=
  match e.hashed with
  | some _ => .error .assertion
  | none =>
    match BlockHash.create e.dictionary 0 true with
    | .error f => .error f
    | .ok none => .error .assertion
    | .ok (some bh) => .ok (true, { e with hashed := some bh })

/-- A call of a method of a `HashedDictionary` or of a `VCDiffStreamingEncoder` constructed with it
(src/google/vcencoder.h:38-180). -/
inductive PairCall where
  | init
  | encoder (c : EncoderCall)
  deriving DecidableEq, Repr

namespace Encoder

/-- One call. The encoder has a pointer to the engine of the dictionary (src/vcencoder.cc:113), so that it sees the dictionary
initialised even if that is done after the encoder has been constructed. -/
def pairCall (e : Encoder) : PairCall → Except Fault (EncoderReply × Encoder)
  | .init =>
    match e.engine.initCall with
    | .error f => .error f
    | .ok (ret, engine) => .ok (⟨ret, []⟩, { e with engine })
  | .encoder c => e.call c

/-- A sequence of calls: the replies, and the fault at which it ended if it did not come to its end. -/
def pairCalls (e : Encoder) : List PairCall → List EncoderReply × Option Fault
  | [] => ([], none)
  | c :: cs =>
    match e.pairCall c with
    | .error f => ([], some f)
    | .ok (r, e') => (r :: (e'.pairCalls cs).1, (e'.pairCalls cs).2)

/-- A `HashedDictionary` and a `VCDiffStreamingEncoder` as they are constructed (src/vcencoder.cc:57-62, 108-117, 166-175;
src/vcdiffengine.cc:26-35). -/
def newPair (dict : Bytes) (flags : Nat) (lookForTargetMatches : Bool) : Encoder :=
  Encoder.new { dictionary := dict, hashed := none } flags lookForTargetMatches

end Encoder

namespace Release

/-! ## The block hash -/

/-- `AddBlock` (src/blockhash.cc:152-197): after a `VCD_DFATAL` it returns. -/
def addBlock (bh : BlockHash) (hashValue : UInt32) : Except Fault BlockHash :=
  if bh.table = [] then .ok bh
  else if bh.added ≥ bh.numBlocks then .ok bh
  else
    match bh.next[bh.added]?, bh.table[bh.index hashValue]? with
    | some none, some none =>
      if bh.added < bh.last.length then
        .ok { bh with table := bh.table.set (bh.index hashValue) (some bh.added),
                      last := bh.last.set bh.added (some bh.added),
                      added := bh.added + 1 }
      else .error .oobRead
    | some none, some (some firstMatching) =>
      match bh.last[firstMatching]? with
      | some (some lastMatching) =>
        match bh.next[lastMatching]? with
        | some none =>
          .ok { bh with next := bh.next.set lastMatching (some bh.added),
                        last := bh.last.set firstMatching (some bh.added),
                        added := bh.added + 1 }
        | some (some _) => .ok bh
        | none => .error .oobRead
      | _ => .error .oobRead
    | some (some _), _ => .ok bh
    | _, _ => .error .oobRead

/-- The `while` loop of `AddAllBlocksThroughIndex` (src/blockhash.cc:234-237). -/
def addBlocksLoop (endLimit : Int) : (fuel : Nat) → BlockHash → (pos : Nat) → Except Fault BlockHash
  | 0, _, _ => .error .diverge
  | fuel + 1, bh, pos =>
    if (pos : Int) < endLimit then do
      let block ← readBlock bh.source pos
      let bh ← addBlock bh (RollingHash.hash block)
      addBlocksLoop endLimit fuel bh (pos + kBlockSize)
    else .ok bh

/-- `AddAllBlocksThroughIndex` (src/blockhash.cc:203-238): after a `VCD_DFATAL` it returns. -/
def addAllBlocksThroughIndex (bh : BlockHash) (endIndex : Int) : Except Fault BlockHash :=
  if endIndex > toInt32 bh.source.length then .ok bh
  else if endIndex ≤ ((bh.added : Int) - 1) * kBlockSize then .ok bh
  else if bh.source.length < kBlockSize then .ok bh
  else
    let lastLegalHashIndex := toInt32 (bh.source.length - kBlockSize)
    let endLimit := if endIndex > lastLegalHashIndex then lastLegalHashIndex + 1 else endIndex
    addBlocksLoop endLimit (bh.source.length + 1) bh (bh.added * kBlockSize)

/-- `AddOneIndexHash` (src/blockhash.h:179-183). -/
def addOneIndexHash (bh : BlockHash) (idx : Nat) (hashValue : UInt32) : Except Fault BlockHash :=
  if idx = bh.added * kBlockSize then addBlock bh hashValue else .ok bh

/-- The constructor and `Init` (src/blockhash.cc:28-36, 55-105); `none` if `Init` returns `false` (lines 63-67). -/
def create (source : Bytes) (startingOffset : Int) (populate : Bool) : Except Fault (Option BlockHash) :=
  let tableSize := calcTableSize source.length
  if tableSize = 0 then .ok none
  else
    let bh : BlockHash :=
      { source, startingOffset, table := List.replicate tableSize none,
        mask := (tableSize - 1) % 4294967296,
        next := List.replicate (source.length / kBlockSize) none,
        last := List.replicate (source.length / kBlockSize) none, added := 0 }
    if populate then (addAllBlocksThroughIndex bh (toInt32 source.length)).map some
    else .ok (some bh)

/-- `NextMatchingBlock` (src/blockhash.cc:331-339): after the `VCD_DFATAL` it returns -1. -/
def nextMatchingBlock (bh : BlockHash) (n : Nat) (block : Bytes) : Except Fault (Option Nat) :=
  if n ≥ bh.numBlocks then .ok none
  else
    match bh.next[n]? with
    | none => .error .oobRead
    | some n' => bh.skipNonMatching block kMaxProbes n'

/-- The loop of `FindBestMatch` (src/blockhash.cc:403-443). -/
def bestMatchLoop (bh : BlockHash) (target block : Bytes) (candidate : Nat) :
    (matchesLeft : Nat) → Option Nat → Match → Except Fault Match
  | _, none, best => .ok best
  | 0, some _, best => .ok best
  | matchesLeft + 1, some n, best => do
    let best ← bh.extendMatch target candidate n best
    let n' ← nextMatchingBlock bh n block
    bestMatchLoop bh target block candidate matchesLeft n' best

/-- `FindBestMatch` (src/blockhash.cc:397-444). -/
def findBestMatch (bh : BlockHash) (hashValue : UInt32) (target : Bytes) (candidate : Nat) (best : Match) :
    Except Fault Match := do
  let block ← readBlock target candidate
  let n ← bh.firstMatchingBlock hashValue block
  bestMatchLoop bh target block candidate kMaxMatchesToCheck n best

/-! ## The engine -/

/-- The searches in `EncodeCopyForBestMatch` (src/vcdiffengine.cc:86-102). -/
def bestMatch (hashed : BlockHash) (targetHash : Option BlockHash) (hashValue : UInt32)
    (target : Bytes) (candidate : Nat) : Except Fault Match :=
  match findBestMatch hashed hashValue target candidate {} with
  | .error f => .error f
  | .ok best =>
    match targetHash with
    | none => .ok best
    | some th => findBestMatch th hashValue target candidate best

/-- `EncodeCopyForBestMatch` (src/vcdiffengine.cc:75-115). -/
def encodeCopyForBestMatch (hashed : BlockHash) (targetHash : Option BlockHash) (hashValue : UInt32)
    (target : Bytes) (candidate : Nat) : Except Fault (Nat × List CoderCall) := do
  let best ← bestMatch hashed targetHash hashValue target candidate
  if best.size < kMinimumMatchSize then .ok (0, [])
  else if best.targetOffset > 0 then
    if best.targetOffset > target.length then .error .oobRead
    else .ok (best.targetOffset.toNat + best.size,
      [.add (target.take best.targetOffset.toNat), .copy best.sourceOffset best.size])
  else .ok (best.targetOffset.toNat + best.size, [.copy best.sourceOffset best.size])

/-- The loop of `EncodeInternal` (src/vcdiffengine.cc:173-212). -/
def encodeLoop (hashed : BlockHash) (target : Bytes) :
    (fuel : Nat) → (nextEncode candidate : Nat) → (hashValue : UInt32) → Option BlockHash → List CoderCall →
    Except Fault (Nat × List CoderCall)
  | 0, _, _, _, _, _ => .error .diverge
  | fuel + 1, nextEncode, candidate, hashValue, targetHash, calls => do
    let (bytesEncoded, made) ← encodeCopyForBestMatch hashed targetHash hashValue
      (target.drop nextEncode) (candidate - nextEncode)
    if bytesEncoded > 0 then
      let nextEncode := nextEncode + bytesEncoded
      if nextEncode > target.length - kBlockSize then .ok (nextEncode, calls ++ made)
      else
        let block ← readBlock target nextEncode
        let targetHash ← Engine.updateTargetHash targetHash (addAllBlocksThroughIndex · (toInt32 nextEncode))
        encodeLoop hashed target fuel nextEncode nextEncode (RollingHash.hash block) targetHash
          (calls ++ made)
    else if candidate + 1 > target.length - kBlockSize then .ok (nextEncode, calls)
    else
      let targetHash ← Engine.updateTargetHash targetHash (addOneIndexHash · candidate hashValue)
      match target[candidate]?, target[candidate + kBlockSize]? with
      | some old, some new =>
        encodeLoop hashed target fuel nextEncode (candidate + 1)
          (RollingHash.updateHash kBlockSize hashValue old new) targetHash calls
      | _, _ => .error .oobRead

/-- `VCDiffEngine::Encode` and `EncodeInternal` (src/vcdiffengine.cc:132-228): the calls made to the coder. Without a hashed
dictionary (lines 137-141), or if the target hash cannot be created (lines 159-162), there are none. -/
def engineEncode (e : Engine) (lookForTargetMatches : Bool) (target : Bytes) : Except Fault (List CoderCall) :=
  match e.hashed with
  | none => .ok []
  | some hashed =>
    if target.length = 0 then .ok []
    else if target.length < kBlockSize then .ok (Engine.addUnmatchedRemainder target ++ [.output])
    else
      match (if lookForTargetMatches then (create target (toInt32 e.dictionary.length) false).map some else .ok none) with
      | .error f => .error f
      | .ok (some none) => .ok []
      | .ok targetHash => do
        let block ← readBlock target 0
        let (nextEncode, calls) ← encodeLoop hashed target (target.length + 1) 0 0 (RollingHash.hash block)
          targetHash.join []
        .ok (calls ++ Engine.addUnmatchedRemainder (target.drop nextEncode) ++ [.output])

/-- `VCDiffEngine::Init` (src/vcdiffengine.cc:44-58): after a `VCD_DFATAL` it returns `false`. -/
def initCall (e : Engine) : Except Fault (Bool × Engine) :=
  match e.hashed with
  | some _ => .ok (false, e)
  | none =>
    match create e.dictionary 0 true with
    | .error f => .error f
    | .ok none => .ok (false, e)
    | .ok (some bh) => .ok (true, { e with hashed := some bh })

/-! ## The code table writer -/

/-- `EncodeAddress` (src/addrcache.cc:141-197): after a `VCD_DFATAL` it returns mode 0 and encoded address 0. -/
def encodeAddress (c : AddrCache) (address here : Int) : AddrCache.EncodeResult :=
  if address < 0 then .ok 0 0 c
  else if address ≥ here then .ok 0 0 c
  else c.encodeAddress address here

/-- `AppendSizeToString` and `AppendSizeToOutputString` (src/encodetable.cc:278-286, src/varint_bigendian.cc:62-67): for a
negative number nothing is appended. -/
def sizeBytes (size : Nat) : Except Fault Bytes :=
  match encodeVarint maxBytes32 (toInt32 size) with
  | none => .error .bufferOverrun
  | some bs => .ok bs

/-- The size operand, if there is one (src/encodetable.cc:211, 232). -/
def sizeOperand (explicit : Bool) (size : Nat) : Except Fault Bytes :=
  if explicit then sizeBytes size else .ok []

/-- `LookupFirstOpcode`, with `size` if it fits a byte and then with size 0 (src/encodetable.cc:216-233); `none` after the
`VCD_DFATAL`. -/
def lookupFirst (m : InstructionMap) (inst : UInt8) (size mode : Nat) : Except Fault (Option (UInt8 × Bool)) :=
  match (if size ≤ 255 then m.firstMap.lookup inst size mode else .found none) with
  | .fault => .error .oobRead
  | .found (some op) => .ok (some (op, false))
  | .found none =>
    match m.firstMap.lookup inst 0 mode with
    | .fault => .error .oobRead
    | .found (some op) => .ok (some (op, true))
    | .found none => .ok none

/-- `EncodeInstruction` (src/encodetable.cc:171-235): after a `VCD_DFATAL` it returns. -/
def encodeInstruction (w : Writer) (inst : UInt8) (size mode : Nat) : Except Fault Writer :=
  match w.map with
  | none => .ok w
  | some m =>
    match w.compound m inst size mode with
    | .error f => .error f
    | .ok (some (i, op, explicit)) =>
      (sizeOperand explicit size).map fun bs =>
        { w with inst := w.inst.set i op ++ bs, lastOpcode := none }
    | .ok none =>
      match lookupFirst m inst size mode with
      | .error f => .error f
      | .ok none => .ok w
      | .ok (some (op, explicit)) =>
        (sizeOperand explicit size).map fun bs =>
          { w with inst := w.inst ++ [op] ++ bs, lastOpcode := some w.inst.length }

/-- `Add` (src/encodetable.cc:237-241). -/
def add (w : Writer) (bytes : Bytes) : Except Fault Writer :=
  (encodeInstruction w vcdAdd bytes.length 0).map fun w => (w.appendData bytes).advance bytes.length

/-- `Run` (src/encodetable.cc:268-272). -/
def run (w : Writer) (size : Nat) (byte : UInt8) : Except Fault Writer :=
  (encodeInstruction w vcdRun size 0).map fun w => (w.appendData [byte]).advance size

/-- `Copy` (src/encodetable.cc:243-266): after the `VCD_DFATAL` it returns. -/
def copy (w : Writer) (offset : Int) (size : Nat) : Except Fault Writer :=
  match w.map with
  | none => .ok w
  | some _ =>
    match encodeAddress w.cache offset (toInt32 (w.dictionarySize + w.targetLength)) with
    | .fault f => .error f
    | .ok mode encoded cache =>
      match encodeInstruction { w with cache } vcdCopy size mode with
      | .error f => .error f
      | .ok w =>
        match w.cache.addressBytes mode encoded with
        | none => .error .bufferOverrun
        | some bytes => .ok ((w.appendAddr bytes).advance size)

/-- The bytes of the delta encoding (src/encodetable.cc:340-360). -/
def deltaBytes (w : Writer) : Except Fault Bytes := do
  let target ← sizeBytes w.targetLength
  let dataLength ← sizeBytes w.data.length
  let instLength ← sizeBytes w.inst.length
  let addrLength ← sizeBytes w.addr.length
  let checksum ← Writer.checksumBytes w.checksum
  .ok (target ++ [0x00] ++ dataLength ++ instLength ++ addrLength ++ checksum ++ w.data ++ w.inst ++ w.addr)

/-- The bytes of a window (src/encodetable.cc:312-381): if the lengths do not agree at the end, it goes on. -/
def windowBytes (w : Writer) : Except Fault Bytes := do
  let indicator : UInt8 := if w.checksum.isSome then 0x05 else 0x01
  let dictionarySize ← sizeBytes w.dictionarySize
  let position ← sizeBytes 0
  let length ← sizeBytes w.deltaLength
  let delta ← deltaBytes w
  .ok ([indicator] ++ dictionarySize ++ position ++ length ++ delta)

/-- `Output` (src/encodetable.cc:307-386): if `Init` fails, it goes on. -/
def output (w : Writer) : Except Fault (Bytes × Writer) :=
  match (if w.inst = [] then .ok [] else windowBytes w) with
  | .error f => .error f
  | .ok out =>
    match (if w.inst = [] then w else { w with data := [], inst := [], addr := [] }).init w.dictionarySize with
    | .error f => .error f
    | .ok (_, w) => .ok (out, w)

/-- One call from the engine. -/
def writerCall (w : Writer) : CoderCall → Except Fault (Bytes × Writer)
  | .add bytes => (add w bytes).map fun w => ([], w)
  | .copy offset size => (copy w offset size).map fun w => ([], w)
  | .run size byte => (run w size byte).map fun w => ([], w)
  | .output => output w

/-- A sequence of calls. -/
def writerCalls (w : Writer) : List CoderCall → Except Fault (Bytes × Writer)
  | [] => .ok ([], w)
  | c :: cs =>
    match writerCall w c with
    | .error f => .error f
    | .ok (out, w) => (writerCalls w cs).map fun r => (out ++ r.1, r.2)

/-! ## The streaming encoder -/

/-- `StartEncoding` (src/vcencoder.cc:119-134): after the `VCD_DFATAL` it returns `false`. -/
def start (e : Encoder) : Except Fault (Bool × Bytes × Encoder) :=
  match e.coder with
  | .binary w =>
    match w.init e.engine.dictionary.length with
    | .error f => .error f
    | .ok (false, w) => .ok (false, [], { e with coder := .binary w })
    | .ok (true, w) => .ok (true, Writer.header e.flags, { e with coder := .binary w, allowed := true })
  | .json _ => e.start

/-- `EncodeChunk` (src/vcencoder.cc:136-153). -/
def chunk (e : Encoder) (data : Bytes) : Except Fault (Bool × Bytes × Encoder) :=
  if !e.allowed then .ok (false, [], e)
  else
    match e.coder with
    | .binary w =>
      let w := if e.flags &&& 2 ≠ 0 then w.addChecksum (computeAdler32 data) else w
      match engineEncode e.engine e.lookForTargetMatches data with
      | .error f => .error f
      | .ok calls =>
        match writerCalls w calls with
        | .error f => .error f
        | .ok (out, w) => .ok (true, out, { e with coder := .binary w })
    | .json w =>
      if !JsonWriter.isAscii data then .ok (false, [], e)
      else
        match engineEncode e.engine e.lookForTargetMatches data with
        | .error f => .error f
        | .ok calls =>
          let r := w.calls calls
          .ok (true, r.1, { e with coder := .json r.2 })

/-- One call of the dictionary or of the encoder (src/google/vcencoder.h:38-180). -/
def pairCall (e : Encoder) : PairCall → Except Fault (EncoderReply × Encoder)
  | .init =>
    match initCall e.engine with
    | .error f => .error f
    | .ok (ret, engine) => .ok (⟨ret, []⟩, { e with engine })
  | .encoder .start => (start e).map fun r => (⟨r.1, r.2.1⟩, r.2.2)
  | .encoder (.chunk data) => (chunk e data).map fun r => (⟨r.1, r.2.1⟩, r.2.2)
  | .encoder .finish => .ok (⟨e.finish.1, e.finish.2.1⟩, e.finish.2.2)

/-- A sequence of calls: the replies, and the fault at which it ended if it did not come to its end. -/
def pairCalls (e : Encoder) : List PairCall → List EncoderReply × Option Fault
  | [] => ([], none)
  | c :: cs =>
    match pairCall e c with
    | .error f => ([], some f)
    | .ok (r, e') => (r :: (pairCalls e' cs).1, (pairCalls e' cs).2)

end Release
end Vcd
