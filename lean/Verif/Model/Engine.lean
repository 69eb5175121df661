import Verif.Model.BlockHash

/-!
# The differencing engine (src/vcdiffengine.h, src/vcdiffengine.cc)

The engine drives a `CodeTableWriterInterface` and learns nothing back from it, so it is modelled as
a function that returns the calls it makes.
-/

namespace Vcd

/-- The calls of `CodeTableWriterInterface` (src/google/codetablewriter_interface.h:56-70) that
describe one window: `Add`, `Copy`, `Run`, `Output`. -/
inductive CoderCall where
  | add (bytes : Bytes)
  | copy (offset : Int) (size : Nat)
  | run (size : Nat) (byte : UInt8)
  | output
  deriving DecidableEq, Repr

/-- `VCDiffEngine::kMinimumMatchSize` (src/vcdiffengine.h:38). -/
def kMinimumMatchSize : Nat := 32

/-- `VCDiffEngine` (src/vcdiffengine.h:109-116): `dictionary_`, `dictionary_size_` and
`hashed_dictionary_`, which is `none` before `Init`. -/
structure Engine where
  dictionary : Bytes
  hashed : Option BlockHash
  deriving DecidableEq, Repr

namespace Engine

/-- The constructor and `VCDiffEngine::Init` (src/vcdiffengine.cc:26-58); `none` if `Init` returns
`false`. The shared table filled by `RollingHash<16>::Init` is `RollingHash.removeTable 16`. -/
def init (dictionary : Bytes) : Except Fault (Option Engine) :=
  (BlockHash.create dictionary 0 true).map fun bh? => bh?.map fun bh => { dictionary, hashed := some bh }

/-- The searches in `EncodeCopyForBestMatch` (src/vcdiffengine.cc:86-102). -/
def bestMatch (hashed : BlockHash) (targetHash : Option BlockHash) (hashValue : UInt32)
    (target : Bytes) (candidate : Nat) : Except Fault Match :=
  match hashed.findBestMatch hashValue target candidate {} with
  | .error f => .error f
  | .ok best =>
    match targetHash with
    | none => .ok best
    | some th => th.findBestMatch hashValue target candidate best

/-- `EncodeCopyForBestMatch` (src/vcdiffengine.cc:75-115): the number of bytes encoded and the calls
made. `target` is the data from `unencoded_target_start` on, `candidate` the position of
`target_candidate_start` in it; `targetHash` is `none` when target matches are not looked for. -/
def encodeCopyForBestMatch (hashed : BlockHash) (targetHash : Option BlockHash) (hashValue : UInt32)
    (target : Bytes) (candidate : Nat) : Except Fault (Nat × List CoderCall) := do
  let best ← bestMatch hashed targetHash hashValue target candidate
  -- ShouldGenerateCopyInstructionForMatchOfSize (src/vcdiffengine.h:79-81)
  if best.size < kMinimumMatchSize then .ok (0, [])
  else if best.targetOffset > 0 then
    if best.targetOffset > target.length then .error .oobRead
    else .ok (best.targetOffset.toNat + best.size,
      [.add (target.take best.targetOffset.toNat), .copy best.sourceOffset best.size])
  else .ok (best.targetOffset.toNat + best.size, [.copy best.sourceOffset best.size])

/-- `AddUnmatchedRemainder` (src/vcdiffengine.cc:123-130). -/
def addUnmatchedRemainder (rest : Bytes) : List CoderCall :=
  if rest.length > 0 then [.add rest] else []

/-- Changing the target hash if there is one (src/vcdiffengine.cc:191-195, 202-206). -/
def updateTargetHash (targetHash : Option BlockHash) (f : BlockHash → Except Fault BlockHash) :
    Except Fault (Option BlockHash) :=
  match targetHash with
  | none => .ok none
  | some th => (f th).map some

/-- The loop of `EncodeInternal` (src/vcdiffengine.cc:173-212): the final position of `next_encode` and
the calls made. `nextEncode` and `candidate` are offsets into the target. -/
def encodeLoop (hashed : BlockHash) (target : Bytes) :
    (fuel : Nat) → (nextEncode candidate : Nat) → (hashValue : UInt32) → Option BlockHash → List CoderCall →
    Except Fault (Nat × List CoderCall)
  | 0, _, _, _, _, _ => .error .diverge
  | fuel + 1, nextEncode, candidate, hashValue, targetHash, calls => do
    let (bytesEncoded, made) ← encodeCopyForBestMatch hashed targetHash hashValue
      (target.drop nextEncode) (candidate - nextEncode)
    if bytesEncoded > 0 then
      let nextEncode := nextEncode + bytesEncoded
      if nextEncode > target.length - kBlockSize then .ok (nextEncode, calls ++ made)
      else
        let block ← readBlock target nextEncode
        let targetHash ← updateTargetHash targetHash (·.addAllBlocksThroughIndex (toInt32 nextEncode))
        encodeLoop hashed target fuel nextEncode nextEncode (RollingHash.hash block) targetHash
          (calls ++ made)
    else if candidate + 1 > target.length - kBlockSize then .ok (nextEncode, calls)
    else
      let targetHash ← updateTargetHash targetHash (·.addOneIndexHash candidate hashValue)
      match target[candidate]?, target[candidate + kBlockSize]? with
      | some old, some new =>
        encodeLoop hashed target fuel nextEncode (candidate + 1)
          (RollingHash.updateHash kBlockSize hashValue old new) targetHash calls
      | _, _ => .error .oobRead

/-- The target hash at the start of `EncodeInternal` (src/vcdiffengine.cc:152-163). A target hash that
cannot be created (lines 159-162) is `VCD_DFATAL`. -/
def createTargetHash (e : Engine) (lookForTargetMatches : Bool) (target : Bytes) :
    Except Fault (Option BlockHash) :=
  if lookForTargetMatches then
    match BlockHash.create target (toInt32 e.dictionary.length) false with
    | .error f => .error f
    | .ok none => .error .assertion
    | .ok (some th) => .ok (some th)
  else .ok none

/-- `VCDiffEngine::Encode` and `EncodeInternal` (src/vcdiffengine.cc:132-228): the calls made to the
coder. Encoding before `Init` (lines 137-141) is `VCD_DFATAL`. -/
def encode (e : Engine) (lookForTargetMatches : Bool) (target : Bytes) : Except Fault (List CoderCall) :=
  match e.hashed with
  | none => .error .assertion
  | some hashed =>
    if target.length = 0 then .ok []
    else if target.length < kBlockSize then .ok (addUnmatchedRemainder target ++ [.output])
    else do
      let targetHash ← createTargetHash e lookForTargetMatches target
      let block ← readBlock target 0
      let (nextEncode, calls) ← encodeLoop hashed target (target.length + 1) 0 0 (RollingHash.hash block)
        targetHash []
      .ok (calls ++ addUnmatchedRemainder (target.drop nextEncode) ++ [.output])

end Engine
end Vcd
