import Verif.Model.RollingHash

/-!
# The block hash (src/blockhash.h, src/blockhash.cc)

A `BlockHash` finds the 16-byte blocks of a piece of source data that are equal to a given block.
Pointers into the source data and into the target are offsets into byte lists; reading outside of a
list, or indexing outside of a table, is a fault. `VCD_DFATAL` checks are faults of kind `assertion`:
what a build with `NDEBUG` does after them is in `Model.Release`.
-/

namespace Vcd

/-- `BlockHash::kBlockSize` (src/blockhash.h:73). -/
def kBlockSize : Nat := 16

/-- `BlockHash::kMaxMatchesToCheck` (src/blockhash.h:324-325): `32 * (32 / 16)`. -/
def kMaxMatchesToCheck : Nat := 64

/-- `BlockHash::kMaxProbes` (src/blockhash.h:329). -/
def kMaxProbes : Nat := 16

/-- The block of `kBlockSize` bytes at an offset. -/
def readBlock (data : Bytes) (pos : Nat) : Except Fault Bytes :=
  if pos + kBlockSize ≤ data.length then .ok ((data.drop pos).take kBlockSize)
  else .error .oobRead

/-- The loop of `CalcTableSize` (src/blockhash.cc:118-128): 0 is the error return. 64 doublings make
any non-zero `size_t` zero, so that 64 iterations are enough. -/
def calcTableLoop (minSize : Nat) : (fuel : Nat) → (tableSize : Nat) → Nat
  | 0, _ => 0
  | fuel + 1, tableSize =>
    if tableSize < minSize then
      let tableSize := tableSize * 2 % size64
      if tableSize = 0 then 0 else calcTableLoop minSize fuel tableSize
    else tableSize

/-- `BlockHash::CalcTableSize` (src/blockhash.cc:108-148), with `sizeof(int) = 4`; 0 for an error. -/
def calcTableSize (dictionarySize : Nat) : Nat :=
  let minSize := dictionarySize / 4 + 1
  let tableSize := calcTableLoop minSize 65 1
  if tableSize = 0 then 0
  else if tableSize &&& (tableSize - 1) ≠ 0 then 0
  else if dictionarySize > 0 ∧ tableSize > minSize * 2 % size64 then 0
  else tableSize

/-- `BlockHash` (src/blockhash.h:446-497): `source_data_` and `source_size_`, `starting_offset_`,
`hash_table_`, `hash_table_mask_`, `next_block_table_`, `last_block_table_`; `added` is
`last_block_added_ + 1`. The value -1 in a table is `none`. -/
structure BlockHash where
  source : Bytes
  startingOffset : Int
  table : List (Option Nat)
  mask : Nat
  next : List (Option Nat)
  last : List (Option Nat)
  added : Nat
  deriving DecidableEq, Repr

namespace BlockHash

/-- `GetHashTableIndex` (src/blockhash.h:343-345). -/
def index (bh : BlockHash) (hashValue : UInt32) : Nat := hashValue.toNat &&& bh.mask

/-- `GetNumberOfBlocks` (src/blockhash.h:337-339). -/
def numBlocks (bh : BlockHash) : Nat := bh.source.length / kBlockSize

/-- `AddBlock` (src/blockhash.cc:152-197). The cast of the number of blocks to `int` (line 161) is
exact for sources shorter than `2^35` bytes and left out. -/
def addBlock (bh : BlockHash) (hashValue : UInt32) : Except Fault BlockHash :=
  if bh.table = [] then .error .assertion
  else if bh.added ≥ bh.numBlocks then .error .assertion
  else
    match bh.next[bh.added]?, bh.table[bh.index hashValue]? with
    | some none, some none =>
      if bh.added < bh.last.length then
        .ok { bh with table := bh.table.set (bh.index hashValue) (some bh.added),
                      last := bh.last.set bh.added (some bh.added),
                      added := bh.added + 1 }
      else .error .oobRead
    | some none, some (some firstMatching) =>
      match bh.last[firstMatching]? with
      | some (some lastMatching) =>
        match bh.next[lastMatching]? with
        | some none =>
          .ok { bh with next := bh.next.set lastMatching (some bh.added),
                        last := bh.last.set firstMatching (some bh.added),
                        added := bh.added + 1 }
        | some (some _) => .error .assertion
        | none => .error .oobRead
      | _ => .error .oobRead
    | some (some _), _ => .error .assertion
    | _, _ => .error .oobRead

/-- The `while` loop of `AddAllBlocksThroughIndex` (src/blockhash.cc:234-237). `pos` and `endLimit` are
`block_ptr` and `end_ptr` as offsets into the source data. -/
def addBlocksLoop (endLimit : Int) : (fuel : Nat) → BlockHash → (pos : Nat) → Except Fault BlockHash
  | 0, _, _ => .error .diverge
  | fuel + 1, bh, pos =>
    if (pos : Int) < endLimit then do
      let block ← readBlock bh.source pos
      let bh ← bh.addBlock (RollingHash.hash block)
      addBlocksLoop endLimit fuel bh (pos + kBlockSize)
    else .ok bh

/-- `AddAllBlocksThroughIndex` (src/blockhash.cc:203-238). -/
def addAllBlocksThroughIndex (bh : BlockHash) (endIndex : Int) : Except Fault BlockHash :=
  if endIndex > toInt32 bh.source.length then .error .assertion
  else if endIndex ≤ ((bh.added : Int) - 1) * kBlockSize then .error .assertion
  else if bh.source.length < kBlockSize then .ok bh
  else
    let lastLegalHashIndex := toInt32 (bh.source.length - kBlockSize)
    let endLimit := if endIndex > lastLegalHashIndex then lastLegalHashIndex + 1 else endIndex
    addBlocksLoop endLimit (bh.source.length + 1) bh (bh.added * kBlockSize)

/-- `AddOneIndexHash` (src/blockhash.h:179-183). -/
def addOneIndexHash (bh : BlockHash) (idx : Nat) (hashValue : UInt32) : Except Fault BlockHash :=
  if idx = bh.added * kBlockSize then bh.addBlock hashValue else .ok bh

/-- The constructor (src/blockhash.cc:28-36) followed by `Init` (src/blockhash.cc:55-78) with
`AddAllBlocks` (src/blockhash.cc:199-201). This is
`CreateDictionaryHash` for `startingOffset = 0` and `populate = true`, and `CreateTargetHash` for
`populate = false` (src/blockhash.cc:80-105). The three errors of `CalcTableSize` are `VCD_DFATAL`, and only
after such an error does `Init` return `false` and the result become `none` (`Model.Release`). -/
def create (source : Bytes) (startingOffset : Int) (populate : Bool) : Except Fault (Option BlockHash) :=
  let tableSize := calcTableSize source.length
  if tableSize = 0 then .error .assertion
  else
    let bh : BlockHash :=
      { source, startingOffset, table := List.replicate tableSize none,
        mask := (tableSize - 1) % 4294967296,
        next := List.replicate (source.length / kBlockSize) none,
        last := List.replicate (source.length / kBlockSize) none, added := 0 }
    if populate then (bh.addAllBlocksThroughIndex (toInt32 source.length)).map some
    else .ok (some bh)

/-- The value of a machine word (`uword_t`, src/blockhash.cc:26) with these bytes, in little-endian order (simplified: for a
big-endian machine the bytes would be reversed). -/
def wordValue : Bytes → Nat
  | [] => 0
  | b :: w => b.toNat + 256 * wordValue w

/-- `sizeof(uword_t)` on 64-bit Unix (src/blockhash.cc:26). -/
def kWordSize : Nat := 8

/-- `CompareWholeWordValues<1>` (src/blockhash.cc:256-263). -/
def compareOneWord (word1 word2 : Bytes) : Bool :=
  wordValue (word1.take kWordSize) == wordValue (word2.take kWordSize)

/-- `CompareWholeWordValues` (src/blockhash.cc:243-253); no words is a case that the template does not have. -/
def compareWholeWordValues : (numberOfWords : Nat) → Bytes → Bytes → Bool
  | 0, _, _ => true
  | 1, block1, block2 => compareOneWord block1 block2
  | n + 2, block1, block2 =>
    compareOneWord block1 block2 &&
      compareWholeWordValues (n + 1) (block1.drop kWordSize) (block2.drop kWordSize)

/-- `BlockCompareWordsInline` (src/blockhash.cc:276-279), also called `BlockCompareWords` (lines 281-283). -/
def blockCompareWords (block1 block2 : Bytes) : Bool :=
  compareWholeWordValues (kBlockSize / kWordSize) block1 block2

/-- `BlockContentsMatchInline` (src/blockhash.cc:285-297), also called `BlockContentsMatch` (lines 299-301), for two blocks of
`kBlockSize` bytes: the first byte is tried first. `useWords` is whether `VCDIFF_USE_BLOCK_COMPARE_WORDS` is
defined (src/config.h.in:52); `memcmp` compares byte by byte. -/
def blockContentsMatch (useWords : Bool) (block1 block2 : Bytes) : Bool :=
  if block1.head? ≠ block2.head? then false
  else if useWords then blockCompareWords block1 block2
  else block1 == block2

/-- Whether `VCDIFF_USE_BLOCK_COMPARE_WORDS` is defined (src/config.h.in:52); nothing in CMakeLists.txt sets it. It makes no difference
to any result (`blockContentsMatch_iff`). -/
def useBlockCompareWords : Bool := true

/-- `SkipNonMatchingBlocks` (src/blockhash.cc:303-315): `probes` is `kMaxProbes` minus the C++
variable of that name. -/
def skipNonMatching (bh : BlockHash) (block : Bytes) : (probes : Nat) → Option Nat → Except Fault (Option Nat)
  | _, none => .ok none
  | probes, some n => do
    let candidate ← readBlock bh.source (n * kBlockSize)
    if blockContentsMatch useBlockCompareWords block candidate then .ok (some n)
    else
      match probes with
      | 0 => .ok none
      | probes + 1 =>
        match bh.next[n]? with
        | none => .error .oobRead
        | some n' => skipNonMatching bh block probes n'

/-- `FirstMatchingBlock` (src/blockhash.cc:320-329). -/
def firstMatchingBlock (bh : BlockHash) (hashValue : UInt32) (block : Bytes) : Except Fault (Option Nat) :=
  match bh.table[bh.index hashValue]? with
  | none => .error .oobRead
  | some n => bh.skipNonMatching block kMaxProbes n

/-- `NextMatchingBlock` (src/blockhash.cc:331-339). -/
def nextMatchingBlock (bh : BlockHash) (n : Nat) (block : Bytes) : Except Fault (Option Nat) :=
  if n ≥ bh.numBlocks then .error .assertion
  else
    match bh.next[n]? with
    | none => .error .oobRead
    | some n' => bh.skipNonMatching block kMaxProbes n'

/-- `MatchingBytesToLeft` (src/blockhash.cc:355-370): `s` and `t` are `source_match_start` and
`target_match_start`, the last argument is `max_bytes - bytes_found`. -/
def matchingBytesToLeft (source target : Bytes) : (s t : Nat) → (max : Nat) → Except Fault Nat
  | _, _, 0 => .ok 0
  | s + 1, t + 1, max + 1 =>
    match source[s]?, target[t]? with
    | some a, some b =>
      if a ≠ b then .ok 0 else (matchingBytesToLeft source target s t max).map (· + 1)
    | _, _ => .error .oobRead
  | _, _, _ + 1 => .error .oobRead

/-- `MatchingBytesToRight` (src/blockhash.cc:376-388), with arguments as above. -/
def matchingBytesToRight (source target : Bytes) : (s t : Nat) → (max : Nat) → Except Fault Nat
  | _, _, 0 => .ok 0
  | s, t, max + 1 =>
    match source[s]?, target[t]? with
    | some a, some b =>
      if a = b then (matchingBytesToRight source target (s + 1) (t + 1) max).map (· + 1) else .ok 0
    | _, _ => .error .oobRead

end BlockHash

/-- `BlockHash::Match` (src/blockhash.h:77-111) with its initial values. -/
structure Match where
  size : Nat := 0
  sourceOffset : Int := -1
  targetOffset : Int := -1
  deriving DecidableEq, Repr

/-- `Match::ReplaceIfBetterMatch` (src/blockhash.h:81-89). -/
def Match.replaceIfBetter (m : Match) (size : Nat) (sourceOffset targetOffset : Int) : Match :=
  if size > m.size then { size, sourceOffset, targetOffset } else m

namespace BlockHash

/-- The body of the loop of `FindBestMatch` (src/blockhash.cc:407-442) for block `n`. `target` is the
`target_size` bytes from `target_start` on, `candidate` the position of `target_candidate_start`
in it. -/
def extendMatch (bh : BlockHash) (target : Bytes) (candidate n : Nat) (best : Match) : Except Fault Match := do
  let sourceOffset := n * kBlockSize
  let left ← matchingBytesToLeft bh.source target sourceOffset candidate (min sourceOffset candidate)
  let right ← matchingBytesToRight bh.source target (sourceOffset + kBlockSize) (candidate + kBlockSize)
    (toInt32 (min (szSub bh.source.length (sourceOffset + kBlockSize))
      (szSub target.length (candidate + kBlockSize)))).toNat
  let offset : Int := ((sourceOffset - left : Nat) : Int) + bh.startingOffset
  if offset > int32Max then .error .intOverflow
  else .ok (best.replaceIfBetter (kBlockSize + left + right) offset ((candidate - left : Nat) : Int))

/-- The loop of `FindBestMatch` (src/blockhash.cc:403-443): `matches` is `kMaxMatchesToCheck` minus
`match_counter`. -/
def bestMatchLoop (bh : BlockHash) (target block : Bytes) (candidate : Nat) :
    (matchesLeft : Nat) → Option Nat → Match → Except Fault Match
  | _, none, best => .ok best
  | 0, some _, best => .ok best
  | matchesLeft + 1, some n, best => do
    let best ← bh.extendMatch target candidate n best
    let n' ← bh.nextMatchingBlock n block
    bestMatchLoop bh target block candidate matchesLeft n' best

/-- `FindBestMatch` (src/blockhash.cc:397-444). -/
def findBestMatch (bh : BlockHash) (hashValue : UInt32) (target : Bytes) (candidate : Nat) (best : Match) :
    Except Fault Match := do
  let block ← readBlock target candidate
  let n ← bh.firstMatchingBlock hashValue block
  bh.bestMatchLoop target block candidate kMaxMatchesToCheck n best

end BlockHash
end Vcd
