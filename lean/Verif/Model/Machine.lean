import Verif.Model.Release
import Verif.Model.WordSize

/-!
# The encoder on other machines

The modules below this one describe the encoder on a 64-bit machine. The definitions here are the same functions for a `Machine`: with
every sum, difference and product of `size_t` values taken modulo the number of these values, and with the block comparison in
machine words of that size and byte order. Functions in which the machine makes no difference are not repeated.

`int` has 32 bits throughout. Adding to a pointer and subtracting pointers is not `size_t` arithmetic, and divisions, comparisons and
conversions to `int` of a `size_t` do not wrap. Not modelled: the amount passed to `ReserveAdditionalBytes`
(src/encodetable.cc:313-321), which does not change what is written (C54 has it for 64 bits), and whether the tables can be allocated.
-/

namespace Vcd

/-- What the encoder can notice of the machine it is compiled for: the number of bits of `size_t`, `sizeof(uword_t)` (src/blockhash.cc:26),
the byte order, and whether `VCDIFF_USE_BLOCK_COMPARE_WORDS` is defined (src/config.h.in:52). -/
structure Machine where
  bits : Nat
  word : Nat
  bigEndian : Bool
  compareWords : Bool
  deriving DecidableEq, Repr

namespace Machine
variable (M : Machine)

/-- `a + b` for `size_t`. -/
def add (a b : Nat) : Nat := Word.add (2 ^ M.bits) a b

/-- `a - b` for `size_t`. -/
def sub (a b : Nat) : Nat := Word.sub (2 ^ M.bits) a b

/-! ## The block hash -/

/-- The loop of `CalcTableSize` (src/blockhash.cc:118-128), as in `calcTableLoop`. -/
def calcTableLoop (minSize : Nat) : (fuel : Nat) → (tableSize : Nat) → Nat
  | 0, _ => 0
  | fuel + 1, tableSize =>
    if tableSize < minSize then
      let tableSize := tableSize * 2 % 2 ^ M.bits
      if tableSize = 0 then 0 else calcTableLoop minSize fuel tableSize
    else tableSize

/-- `BlockHash::CalcTableSize` (src/blockhash.cc:108-148), with `sizeof(int) = 4`; 0 for an error. -/
def calcTableSize (dictionarySize : Nat) : Nat :=
  let minSize := M.add (dictionarySize / 4) 1
  let tableSize := M.calcTableLoop minSize (M.bits + 1) 1
  if tableSize = 0 then 0
  else if tableSize &&& (M.sub tableSize 1) ≠ 0 then 0
  else if dictionarySize > 0 ∧ tableSize > minSize * 2 % 2 ^ M.bits then 0
  else tableSize

/-- The constructor, `Init` and `AddAllBlocks` (src/blockhash.cc:28-36, 55-105, 199-201), as in `BlockHash.create`. -/
def create (source : Bytes) (startingOffset : Int) (populate : Bool) : Except Fault (Option BlockHash) :=
  let tableSize := M.calcTableSize source.length
  if tableSize = 0 then .error .assertion
  else
    let bh : BlockHash :=
      { source, startingOffset, table := List.replicate tableSize none,
        mask := (M.sub tableSize 1) % 4294967296,
        next := List.replicate (source.length / kBlockSize) none,
        last := List.replicate (source.length / kBlockSize) none, added := 0 }
    if populate then (bh.addAllBlocksThroughIndex (toInt32 source.length)).map some
    else .ok (some bh)

/-- The value of a machine word with these bytes in memory. -/
def wordValue (bytes : Bytes) : Nat := BlockHash.wordValue (if M.bigEndian then bytes.reverse else bytes)

/-- `CompareWholeWordValues<1>` (src/blockhash.cc:256-263). -/
def compareOneWord (word1 word2 : Bytes) : Bool := M.wordValue (word1.take M.word) == M.wordValue (word2.take M.word)

/-- `CompareWholeWordValues` (src/blockhash.cc:243-253). -/
def compareWholeWordValues : (numberOfWords : Nat) → Bytes → Bytes → Bool
  | 0, _, _ => true
  | 1, block1, block2 => M.compareOneWord block1 block2
  | n + 2, block1, block2 =>
    M.compareOneWord block1 block2 && compareWholeWordValues (n + 1) (block1.drop M.word) (block2.drop M.word)

/-- `BlockContentsMatchInline` (src/blockhash.cc:276-297). -/
def blockContentsMatch (block1 block2 : Bytes) : Bool :=
  if block1.head? ≠ block2.head? then false
  else if M.compareWords then M.compareWholeWordValues (kBlockSize / M.word) block1 block2
  else block1 == block2

/-- `SkipNonMatchingBlocks` (src/blockhash.cc:303-315), as in `BlockHash.skipNonMatching`. -/
def skipNonMatching (bh : BlockHash) (block : Bytes) : (probes : Nat) → Option Nat → Except Fault (Option Nat)
  | _, none => .ok none
  | probes, some n => do
    let candidate ← readBlock bh.source (n * kBlockSize)
    if M.blockContentsMatch block candidate then .ok (some n)
    else
      match probes with
      | 0 => .ok none
      | probes + 1 =>
        match bh.next[n]? with
        | none => .error .oobRead
        | some n' => skipNonMatching bh block probes n'

/-- `FirstMatchingBlock` (src/blockhash.cc:320-329). -/
def firstMatchingBlock (bh : BlockHash) (hashValue : UInt32) (block : Bytes) : Except Fault (Option Nat) :=
  match bh.table[bh.index hashValue]? with
  | none => .error .oobRead
  | some n => M.skipNonMatching bh block kMaxProbes n

/-- `NextMatchingBlock` (src/blockhash.cc:331-339). -/
def nextMatchingBlock (bh : BlockHash) (n : Nat) (block : Bytes) : Except Fault (Option Nat) :=
  if n ≥ bh.numBlocks then .error .assertion
  else
    match bh.next[n]? with
    | none => .error .oobRead
    | some n' => M.skipNonMatching bh block kMaxProbes n'

/-- The body of the loop of `FindBestMatch` (src/blockhash.cc:407-442), as in `BlockHash.extendMatch`; `match_size` is a `size_t`. -/
def extendMatch (bh : BlockHash) (target : Bytes) (candidate n : Nat) (best : Match) : Except Fault Match := do
  let sourceOffset := n * kBlockSize
  let left ← BlockHash.matchingBytesToLeft bh.source target sourceOffset candidate (min sourceOffset candidate)
  let right ← BlockHash.matchingBytesToRight bh.source target (sourceOffset + kBlockSize) (candidate + kBlockSize)
    (toInt32 (min (M.sub bh.source.length (sourceOffset + kBlockSize))
      (M.sub target.length (candidate + kBlockSize)))).toNat
  let offset : Int := ((sourceOffset - left : Nat) : Int) + bh.startingOffset
  if offset > int32Max then .error .intOverflow
  else .ok (best.replaceIfBetter (M.add (M.add kBlockSize left) right) offset ((candidate - left : Nat) : Int))

/-- The loop of `FindBestMatch` (src/blockhash.cc:403-443). -/
def bestMatchLoop (bh : BlockHash) (target block : Bytes) (candidate : Nat) :
    (matchesLeft : Nat) → Option Nat → Match → Except Fault Match
  | _, none, best => .ok best
  | 0, some _, best => .ok best
  | matchesLeft + 1, some n, best => do
    let best ← M.extendMatch bh target candidate n best
    let n' ← M.nextMatchingBlock bh n block
    bestMatchLoop bh target block candidate matchesLeft n' best

/-- `FindBestMatch` (src/blockhash.cc:397-444). -/
def findBestMatch (bh : BlockHash) (hashValue : UInt32) (target : Bytes) (candidate : Nat) (best : Match) :
    Except Fault Match := do
  let block ← readBlock target candidate
  let n ← M.firstMatchingBlock bh hashValue block
  M.bestMatchLoop bh target block candidate kMaxMatchesToCheck n best

/-! ## The engine -/

/-- `VCDiffEngine::Init` among the calls (src/vcdiffengine.cc:44-58), as in `Engine.initCall`. -/
def initCall (e : Engine) : Except Fault (Bool × Engine) :=
  match e.hashed with
  | some _ => .error .assertion
  | none =>
    match M.create e.dictionary 0 true with
    | .error f => .error f
    | .ok none => .error .assertion
    | .ok (some bh) => .ok (true, { e with hashed := some bh })

/-- The searches in `EncodeCopyForBestMatch` (src/vcdiffengine.cc:86-102). -/
def bestMatch (hashed : BlockHash) (targetHash : Option BlockHash) (hashValue : UInt32)
    (target : Bytes) (candidate : Nat) : Except Fault Match :=
  match M.findBestMatch hashed hashValue target candidate {} with
  | .error f => .error f
  | .ok best =>
    match targetHash with
    | none => .ok best
    | some th => M.findBestMatch th hashValue target candidate best

/-- `EncodeCopyForBestMatch` (src/vcdiffengine.cc:75-115): the result is an `int`, converted to `size_t`, plus a `size_t`. -/
def encodeCopyForBestMatch (hashed : BlockHash) (targetHash : Option BlockHash) (hashValue : UInt32)
    (target : Bytes) (candidate : Nat) : Except Fault (Nat × List CoderCall) := do
  let best ← M.bestMatch hashed targetHash hashValue target candidate
  if best.size < kMinimumMatchSize then .ok (0, [])
  else if best.targetOffset > 0 then
    if best.targetOffset > target.length then .error .oobRead
    else .ok (M.add best.targetOffset.toNat best.size,
      [.add (target.take best.targetOffset.toNat), .copy best.sourceOffset best.size])
  else .ok (M.add best.targetOffset.toNat best.size, [.copy best.sourceOffset best.size])

/-- The loop of `EncodeInternal` (src/vcdiffengine.cc:173-212), as in `Engine.encodeLoop`. -/
def encodeLoop (hashed : BlockHash) (target : Bytes) :
    (fuel : Nat) → (nextEncode candidate : Nat) → (hashValue : UInt32) → Option BlockHash → List CoderCall →
    Except Fault (Nat × List CoderCall)
  | 0, _, _, _, _, _ => .error .diverge
  | fuel + 1, nextEncode, candidate, hashValue, targetHash, calls => do
    let (bytesEncoded, made) ← M.encodeCopyForBestMatch hashed targetHash hashValue
      (target.drop nextEncode) (candidate - nextEncode)
    if bytesEncoded > 0 then
      let nextEncode := nextEncode + bytesEncoded
      if nextEncode > target.length - kBlockSize then .ok (nextEncode, calls ++ made)
      else
        let block ← readBlock target nextEncode
        let targetHash ← Engine.updateTargetHash targetHash (·.addAllBlocksThroughIndex (toInt32 nextEncode))
        encodeLoop hashed target fuel nextEncode nextEncode (RollingHash.hash block) targetHash
          (calls ++ made)
    else if candidate + 1 > target.length - kBlockSize then .ok (nextEncode, calls)
    else
      let targetHash ← Engine.updateTargetHash targetHash (·.addOneIndexHash candidate hashValue)
      match target[candidate]?, target[candidate + kBlockSize]? with
      | some old, some new =>
        encodeLoop hashed target fuel nextEncode (candidate + 1)
          (RollingHash.updateHash kBlockSize hashValue old new) targetHash calls
      | _, _ => .error .oobRead

/-- The target hash at the start of `EncodeInternal` (src/vcdiffengine.cc:152-163). -/
def createTargetHash (e : Engine) (lookForTargetMatches : Bool) (target : Bytes) :
    Except Fault (Option BlockHash) :=
  if lookForTargetMatches then
    match M.create target (toInt32 e.dictionary.length) false with
    | .error f => .error f
    | .ok none => .error .assertion
    | .ok (some th) => .ok (some th)
  else .ok none

/-- `VCDiffEngine::Encode` and `EncodeInternal` (src/vcdiffengine.cc:132-228): the calls made to the coder. -/
def engineEncode (e : Engine) (lookForTargetMatches : Bool) (target : Bytes) : Except Fault (List CoderCall) :=
  match e.hashed with
  | none => .error .assertion
  | some hashed =>
    if target.length = 0 then .ok []
    else if target.length < kBlockSize then .ok (Engine.addUnmatchedRemainder target ++ [.output])
    else do
      let targetHash ← M.createTargetHash e lookForTargetMatches target
      let block ← readBlock target 0
      let (nextEncode, calls) ← M.encodeLoop hashed target (target.length + 1) 0 0 (RollingHash.hash block)
        targetHash []
      .ok (calls ++ Engine.addUnmatchedRemainder (target.drop nextEncode) ++ [.output])

/-! ## The code table writer -/

/-- `target_length_ += size` (src/encodetable.cc:240, 265, 271). -/
def advance (w : Writer) (size : Nat) : Writer := { w with targetLength := M.add w.targetLength size }

/-- `Add` (src/encodetable.cc:237-241). -/
def writerAdd (w : Writer) (bytes : Bytes) : Except Fault Writer :=
  (w.encodeInstruction vcdAdd bytes.length 0).map fun w => M.advance (w.appendData bytes) bytes.length

/-- `Run` (src/encodetable.cc:268-272). -/
def writerRun (w : Writer) (size : Nat) (byte : UInt8) : Except Fault Writer :=
  (w.encodeInstruction vcdRun size 0).map fun w => M.advance (w.appendData [byte]) size

/-- `Copy` (src/encodetable.cc:243-266). -/
def writerCopy (w : Writer) (offset : Int) (size : Nat) : Except Fault Writer :=
  match w.map with
  | none => .error .assertion
  | some _ =>
    match w.cache.encodeAddress offset (toInt32 (M.add w.dictionarySize w.targetLength)) with
    | .fault f => .error f
    | .ok mode encoded cache =>
      match { w with cache }.encodeInstruction vcdCopy size mode with
      | .error f => .error f
      | .ok w =>
        match w.cache.addressBytes mode encoded with
        | none => .error .bufferOverrun
        | some bytes => .ok (M.advance (w.appendAddr bytes) size)

/-- `CalculateLengthOfTheDeltaEncoding` (src/encodetable.cc:290-305). -/
def deltaLength (w : Writer) : Nat :=
  let length := M.add (M.add (M.add (M.add (M.add (M.add (M.add (Writer.sizeLength w.targetLength) 1)
    (Writer.sizeLength w.data.length)) (Writer.sizeLength w.inst.length)) (Writer.sizeLength w.addr.length))
    w.data.length) w.inst.length) w.addr.length
  if w.checksum.isSome then M.add length (Writer.checksumLength w.checksum) else length

/-- The bytes of a window (src/encodetable.cc:312-381). -/
def windowBytes (w : Writer) : Except Fault Bytes := do
  let indicator : UInt8 := if w.checksum.isSome then 0x05 else 0x01
  let dictionarySize ← Writer.sizeBytes w.dictionarySize
  let position ← Writer.sizeBytes 0
  let length ← Writer.sizeBytes (M.deltaLength w)
  let delta ← w.deltaBytes
  if M.deltaLength w ≠ delta.length then .error .assertion
  else .ok ([indicator] ++ dictionarySize ++ position ++ length ++ delta)

/-- `Output` (src/encodetable.cc:307-386). -/
def writerOutput (w : Writer) : Except Fault (Bytes × Writer) :=
  match (if w.inst = [] then .ok [] else M.windowBytes w) with
  | .error f => .error f
  | .ok out =>
    match (if w.inst = [] then w else { w with data := [], inst := [], addr := [] }).init w.dictionarySize with
    | .error f => .error f
    | .ok (false, _) => .error .assertion
    | .ok (true, w) => .ok (out, w)

/-- One call from the engine. -/
def writerCall (w : Writer) : CoderCall → Except Fault (Bytes × Writer)
  | .add bytes => (M.writerAdd w bytes).map fun w => ([], w)
  | .copy offset size => (M.writerCopy w offset size).map fun w => ([], w)
  | .run size byte => (M.writerRun w size byte).map fun w => ([], w)
  | .output => M.writerOutput w

/-- A sequence of calls. -/
def writerCalls (w : Writer) : List CoderCall → Except Fault (Bytes × Writer)
  | [] => .ok ([], w)
  | c :: cs =>
    match M.writerCall w c with
    | .error f => .error f
    | .ok (out, w) => (writerCalls w cs).map fun r => (out ++ r.1, r.2)

/-! ## The encoder -/

/-- `EncodeChunk` (src/vcencoder.cc:136-153). -/
def chunk (e : Encoder) (data : Bytes) : Except Fault (Bool × Bytes × Encoder) :=
  if !e.allowed then .ok (false, [], e)
  else
    match e.coder with
    | .binary w =>
      let w := if e.flags &&& 2 ≠ 0 then w.addChecksum (computeAdler32 data) else w
      match M.engineEncode e.engine e.lookForTargetMatches data with
      | .error f => .error f
      | .ok calls =>
        match M.writerCalls w calls with
        | .error f => .error f
        | .ok (out, w) => .ok (true, out, { e with coder := .binary w })
    | .json w =>
      if !JsonWriter.isAscii data then .ok (false, [], e)
      else
        match M.engineEncode e.engine e.lookForTargetMatches data with
        | .error f => .error f
        | .ok calls =>
          let r := w.calls calls
          .ok (true, r.1, { e with coder := .json r.2 })

/-- A call of a method of a `HashedDictionary` or of the encoder constructed with it, as in `Encoder.pairCall`. -/
def pairCall (e : Encoder) : PairCall → Except Fault (EncoderReply × Encoder)
  | .init =>
    match M.initCall e.engine with
    | .error f => .error f
    | .ok (ret, engine) => .ok (⟨ret, []⟩, { e with engine })
  | .encoder .start => e.start.map fun r => (⟨r.1, r.2.1⟩, r.2.2)
  | .encoder (.chunk data) => (M.chunk e data).map fun r => (⟨r.1, r.2.1⟩, r.2.2)
  | .encoder .finish => .ok (⟨e.finish.1, e.finish.2.1⟩, e.finish.2.2)

/-- A sequence of calls: the replies, and the fault at which it ended if it did not come to its end. -/
def pairCalls (e : Encoder) : List PairCall → List EncoderReply × Option Fault
  | [] => ([], none)
  | c :: cs =>
    match M.pairCall e c with
    | .error f => ([], some f)
    | .ok (r, e') => (r :: (pairCalls e' cs).1, (pairCalls e' cs).2)

end Machine
end Vcd
