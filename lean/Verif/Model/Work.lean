import Verif.Model.Engine

/-!
# The work done by the differencing engine (src/blockhash.cc, src/vcdiffengine.cc)

The functions of `Model.BlockHash` and `Model.Engine` again, each returning also a count of the
operations it performs. `Verif.Proof.Work` shows that without the counts they are the same functions.
Each counted operation takes a bounded time: it compares two bytes or two blocks of 16 bytes, hashes or
rehashes one block, or enters one block into the tables.
-/

namespace Vcd

/-- Counts of operations. -/
structure Work where
  /-- Calls of `EncodeCopyForBestMatch` (src/vcdiffengine.cc:75-115). -/
  searches : Nat := 0
  /-- Comparisons of a block with a block of the source, `BlockContentsMatchInline` (src/blockhash.cc:285-297). -/
  blocks : Nat := 0
  /-- Comparisons of two bytes in `MatchingBytesToLeft` and `MatchingBytesToRight` (src/blockhash.cc:355-388). -/
  bytes : Nat := 0
  /-- Calls of `RollingHash::Hash` and `RollingHash::UpdateHash` (src/rolling_hash.h:116-149). -/
  hashes : Nat := 0
  /-- Calls of `AddBlock` (src/blockhash.cc:152-197). -/
  adds : Nat := 0
  deriving DecidableEq, Repr

/-- One count after the other. -/
def Work.plus (a b : Work) : Work :=
  { searches := a.searches + b.searches, blocks := a.blocks + b.blocks, bytes := a.bytes + b.bytes,
    hashes := a.hashes + b.hashes, adds := a.adds + b.adds }

instance : Add Work := ⟨Work.plus⟩

/-- A result together with the work for it. -/
abbrev Counted (α : Type) := Except Fault (α × Work)

/-- Work done before that of a computation. -/
def Counted.after {α : Type} (w : Work) (x : Counted α) : Counted α := x.map fun r => (r.1, w + r.2)

/-- One computation after the other: the work of both. -/
def Counted.andThen {α β : Type} (x : Counted α) (f : α → Counted β) : Counted β :=
  match x with
  | .error e => .error e
  | .ok (a, w) => Counted.after w (f a)

/-- A computation without counted operations. -/
def Counted.free {α : Type} (x : Except Fault α) : Counted α := x.map fun a => (a, {})

namespace BlockHash
open Counted

/-- `addBlock` (src/blockhash.cc:152-197). -/
def addBlockW (bh : BlockHash) (hashValue : UInt32) : Counted BlockHash :=
  after { adds := 1 } (free (bh.addBlock hashValue))

/-- `addBlocksLoop` (src/blockhash.cc:234-237). -/
def addBlocksLoopW (endLimit : Int) : (fuel : Nat) → BlockHash → (pos : Nat) → Counted BlockHash
  | 0, _, _ => .error .diverge
  | fuel + 1, bh, pos =>
    if (pos : Int) < endLimit then
      andThen (free (readBlock bh.source pos)) fun block =>
      andThen (after { hashes := 1 } (bh.addBlockW (RollingHash.hash block))) fun bh =>
      addBlocksLoopW endLimit fuel bh (pos + kBlockSize)
    else .ok (bh, {})

/-- `addAllBlocksThroughIndex` (src/blockhash.cc:203-238). -/
def addAllBlocksThroughIndexW (bh : BlockHash) (endIndex : Int) : Counted BlockHash :=
  if endIndex > toInt32 bh.source.length then .error .assertion
  else if endIndex ≤ ((bh.added : Int) - 1) * kBlockSize then .error .assertion
  else if bh.source.length < kBlockSize then .ok (bh, {})
  else
    let lastLegalHashIndex := toInt32 (bh.source.length - kBlockSize)
    let endLimit := if endIndex > lastLegalHashIndex then lastLegalHashIndex + 1 else endIndex
    addBlocksLoopW endLimit (bh.source.length + 1) bh (bh.added * kBlockSize)

/-- `addOneIndexHash` (src/blockhash.h:179-183). -/
def addOneIndexHashW (bh : BlockHash) (idx : Nat) (hashValue : UInt32) : Counted BlockHash :=
  if idx = bh.added * kBlockSize then bh.addBlockW hashValue else .ok (bh, {})

/-- `create` (src/blockhash.cc:28-105). -/
def createW (source : Bytes) (startingOffset : Int) (populate : Bool) : Counted (Option BlockHash) :=
  let tableSize := calcTableSize source.length
  if tableSize = 0 then .error .assertion
  else
    let bh : BlockHash :=
      { source, startingOffset, table := List.replicate tableSize none,
        mask := (tableSize - 1) % 4294967296,
        next := List.replicate (source.length / kBlockSize) none,
        last := List.replicate (source.length / kBlockSize) none, added := 0 }
    if populate then (bh.addAllBlocksThroughIndexW (toInt32 source.length)).map fun r => (some r.1, r.2)
    else .ok (some bh, {})

/-- `skipNonMatching` (src/blockhash.cc:303-315). -/
def skipNonMatchingW (bh : BlockHash) (block : Bytes) : (probes : Nat) → Option Nat → Counted (Option Nat)
  | _, none => .ok (none, {})
  | probes, some n =>
    andThen (free (readBlock bh.source (n * kBlockSize))) fun candidate =>
    after { blocks := 1 } <|
      if blockContentsMatch useBlockCompareWords block candidate then .ok (some n, {})
      else
        match probes with
        | 0 => .ok (none, {})
        | probes + 1 =>
          match bh.next[n]? with
          | none => .error .oobRead
          | some n' => skipNonMatchingW bh block probes n'

/-- `firstMatchingBlock` (src/blockhash.cc:320-329). -/
def firstMatchingBlockW (bh : BlockHash) (hashValue : UInt32) (block : Bytes) : Counted (Option Nat) :=
  match bh.table[bh.index hashValue]? with
  | none => .error .oobRead
  | some n => bh.skipNonMatchingW block kMaxProbes n

/-- `nextMatchingBlock` (src/blockhash.cc:331-339). -/
def nextMatchingBlockW (bh : BlockHash) (n : Nat) (block : Bytes) : Counted (Option Nat) :=
  if n ≥ bh.numBlocks then .error .assertion
  else
    match bh.next[n]? with
    | none => .error .oobRead
    | some n' => bh.skipNonMatchingW block kMaxProbes n'

/-- `matchingBytesToLeft` (src/blockhash.cc:355-370). -/
def matchingBytesToLeftW (source target : Bytes) : (s t : Nat) → (max : Nat) → Counted Nat
  | _, _, 0 => .ok (0, {})
  | s + 1, t + 1, max + 1 =>
    match source[s]?, target[t]? with
    | some a, some b =>
      after { bytes := 1 } <|
        if a ≠ b then .ok (0, {}) else (matchingBytesToLeftW source target s t max).map fun r => (r.1 + 1, r.2)
    | _, _ => .error .oobRead
  | _, _, _ + 1 => .error .oobRead

/-- `matchingBytesToRight` (src/blockhash.cc:376-388). -/
def matchingBytesToRightW (source target : Bytes) : (s t : Nat) → (max : Nat) → Counted Nat
  | _, _, 0 => .ok (0, {})
  | s, t, max + 1 =>
    match source[s]?, target[t]? with
    | some a, some b =>
      after { bytes := 1 } <|
        if a = b then (matchingBytesToRightW source target (s + 1) (t + 1) max).map fun r => (r.1 + 1, r.2)
        else .ok (0, {})
    | _, _ => .error .oobRead

/-- `extendMatch` (src/blockhash.cc:407-442). -/
def extendMatchW (bh : BlockHash) (target : Bytes) (candidate n : Nat) (best : Match) : Counted Match :=
  let sourceOffset := n * kBlockSize
  andThen (matchingBytesToLeftW bh.source target sourceOffset candidate (min sourceOffset candidate)) fun left =>
  andThen (matchingBytesToRightW bh.source target (sourceOffset + kBlockSize) (candidate + kBlockSize)
    (toInt32 (min (szSub bh.source.length (sourceOffset + kBlockSize))
      (szSub target.length (candidate + kBlockSize)))).toNat) fun right =>
  let offset : Int := ((sourceOffset - left : Nat) : Int) + bh.startingOffset
  if offset > int32Max then .error .intOverflow
  else .ok (best.replaceIfBetter (kBlockSize + left + right) offset ((candidate - left : Nat) : Int), {})

/-- `bestMatchLoop` (src/blockhash.cc:403-443). -/
def bestMatchLoopW (bh : BlockHash) (target block : Bytes) (candidate : Nat) :
    (matchesLeft : Nat) → Option Nat → Match → Counted Match
  | _, none, best => .ok (best, {})
  | 0, some _, best => .ok (best, {})
  | matchesLeft + 1, some n, best =>
    andThen (bh.extendMatchW target candidate n best) fun best =>
    andThen (bh.nextMatchingBlockW n block) fun n' =>
    bestMatchLoopW bh target block candidate matchesLeft n' best

/-- `findBestMatch` (src/blockhash.cc:397-444). -/
def findBestMatchW (bh : BlockHash) (hashValue : UInt32) (target : Bytes) (candidate : Nat) (best : Match) :
    Counted Match :=
  andThen (free (readBlock target candidate)) fun block =>
  andThen (bh.firstMatchingBlockW hashValue block) fun n =>
  bh.bestMatchLoopW target block candidate kMaxMatchesToCheck n best

end BlockHash

namespace Engine
open Counted

/-- `init` (src/vcdiffengine.cc:26-58). -/
def initW (dictionary : Bytes) : Counted (Option Engine) :=
  (BlockHash.createW dictionary 0 true).map fun r =>
    (r.1.map fun bh => { dictionary, hashed := some bh }, r.2)

/-- `bestMatch` (src/vcdiffengine.cc:86-102). -/
def bestMatchW (hashed : BlockHash) (targetHash : Option BlockHash) (hashValue : UInt32)
    (target : Bytes) (candidate : Nat) : Counted Match :=
  andThen (hashed.findBestMatchW hashValue target candidate {}) fun best =>
  match targetHash with
  | none => .ok (best, {})
  | some th => th.findBestMatchW hashValue target candidate best

/-- `encodeCopyForBestMatch` (src/vcdiffengine.cc:75-115). -/
def encodeCopyForBestMatchW (hashed : BlockHash) (targetHash : Option BlockHash) (hashValue : UInt32)
    (target : Bytes) (candidate : Nat) : Counted (Nat × List CoderCall) :=
  after { searches := 1 } <|
  andThen (bestMatchW hashed targetHash hashValue target candidate) fun best =>
  if best.size < kMinimumMatchSize then .ok ((0, []), {})
  else if best.targetOffset > 0 then
    if best.targetOffset > target.length then .error .oobRead
    else .ok ((best.targetOffset.toNat + best.size,
      [.add (target.take best.targetOffset.toNat), .copy best.sourceOffset best.size]), {})
  else .ok ((best.targetOffset.toNat + best.size, [.copy best.sourceOffset best.size]), {})

/-- `updateTargetHash` (src/vcdiffengine.cc:191-195, 202-206). -/
def updateTargetHashW (targetHash : Option BlockHash) (f : BlockHash → Counted BlockHash) :
    Counted (Option BlockHash) :=
  match targetHash with
  | none => .ok (none, {})
  | some th => (f th).map fun r => (some r.1, r.2)

/-- `encodeLoop` (src/vcdiffengine.cc:173-212). -/
def encodeLoopW (hashed : BlockHash) (target : Bytes) :
    (fuel : Nat) → (nextEncode candidate : Nat) → (hashValue : UInt32) → Option BlockHash → List CoderCall →
    Counted (Nat × List CoderCall)
  | 0, _, _, _, _, _ => .error .diverge
  | fuel + 1, nextEncode, candidate, hashValue, targetHash, calls =>
    andThen (encodeCopyForBestMatchW hashed targetHash hashValue (target.drop nextEncode) (candidate - nextEncode)) fun r =>
    if r.1 > 0 then
      let nextEncode := nextEncode + r.1
      if nextEncode > target.length - kBlockSize then .ok ((nextEncode, calls ++ r.2), {})
      else
        andThen (free (readBlock target nextEncode)) fun block =>
        andThen (after { hashes := 1 } (updateTargetHashW targetHash (·.addAllBlocksThroughIndexW (toInt32 nextEncode))))
          fun targetHash =>
        encodeLoopW hashed target fuel nextEncode nextEncode (RollingHash.hash block) targetHash (calls ++ r.2)
    else if candidate + 1 > target.length - kBlockSize then .ok ((nextEncode, calls), {})
    else
      andThen (updateTargetHashW targetHash (·.addOneIndexHashW candidate hashValue)) fun targetHash =>
      match target[candidate]?, target[candidate + kBlockSize]? with
      | some old, some new =>
        after { hashes := 1 } <|
          encodeLoopW hashed target fuel nextEncode (candidate + 1)
            (RollingHash.updateHash kBlockSize hashValue old new) targetHash calls
      | _, _ => .error .oobRead

/-- `createTargetHash` (src/vcdiffengine.cc:152-163). -/
def createTargetHashW (e : Engine) (lookForTargetMatches : Bool) (target : Bytes) :
    Counted (Option BlockHash) :=
  if lookForTargetMatches then
    match BlockHash.createW target (toInt32 e.dictionary.length) false with
    | .error f => .error f
    | .ok (none, _) => .error .assertion
    | .ok (some th, w) => .ok (some th, w)
  else .ok (none, {})

/-- `encode` (src/vcdiffengine.cc:132-228). -/
def encodeW (e : Engine) (lookForTargetMatches : Bool) (target : Bytes) : Counted (List CoderCall) :=
  match e.hashed with
  | none => .error .assertion
  | some hashed =>
    if target.length = 0 then .ok ([], {})
    else if target.length < kBlockSize then .ok (addUnmatchedRemainder target ++ [.output], {})
    else
      andThen (createTargetHashW e lookForTargetMatches target) fun targetHash =>
      andThen (after { hashes := 1 } (free (readBlock target 0))) fun block =>
      andThen (encodeLoopW hashed target (target.length + 1) 0 0 (RollingHash.hash block) targetHash []) fun r =>
      .ok (r.2 ++ addUnmatchedRemainder (target.drop r.1) ++ [.output], {})

end Engine
end Vcd
