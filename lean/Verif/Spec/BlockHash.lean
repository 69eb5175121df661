import Verif.Model.BlockHash

/-!
# What a block hash is for

The source data is cut into consecutive blocks of 16 bytes, the last incomplete one left out. Blocks
are found again through a table of buckets, each with a chain of block numbers.
-/

namespace Vcd.Spec

/-- The bytes of block `k` of some data. -/
def block (data : Bytes) (k : Nat) : Bytes := (data.drop (16 * k)).take 16

/-- Following a chain of links from `start` visits exactly the numbers in the list, in that order, and
then ends. -/
inductive Chain (link : List (Option Nat)) : (start : Option Nat) → List Nat → Prop
  | done : Chain link none []
  | step {k : Nat} {n : Option Nat} {l : List Nat} :
      link[k]? = some n → Chain link n l → Chain link (some k) (k :: l)

/-- The `size` bytes of the source from `s` on are the `size` bytes of the target from `t` on; both
ranges lie inside their data, and the range of the target covers the 16 bytes at `candidate`. -/
structure Matches (source target : Bytes) (candidate s t size : Nat) : Prop where
  inSource : s + size ≤ source.length
  inTarget : t + size ≤ target.length
  start : t ≤ candidate
  stop : candidate + 16 ≤ t + size
  equal : (source.drop s).take size = (target.drop t).take size

/-- A range of equal bytes that cannot be made longer at either end: it begins at the beginning of one
of the two, or the bytes before it differ; and it ends at the end of one of the two, or the bytes after
it differ. -/
structure Maximal (source target : Bytes) (s t size : Nat) : Prop where
  left : s = 0 ∨ t = 0 ∨ source[s - 1]? ≠ target[t - 1]?
  right : s + size = source.length ∨ t + size = target.length ∨ source[s + size]? ≠ target[t + size]?

/-- The operations by which blocks get into a block hash. -/
inductive AddOp where
  /-- `AddOneIndexHash` -/
  | one (index : Nat) (hashValue : UInt32)
  /-- `AddAllBlocksThroughIndex` -/
  | through (endIndex : Int)

/-- The effect of one of them. -/
def AddOp.run (bh : BlockHash) : AddOp → Except Fault BlockHash
  | .one i h => bh.addOneIndexHash i h
  | .through e => bh.addAllBlocksThroughIndex e

/-- The effect of a sequence. -/
def AddOp.runAll : BlockHash → List AddOp → Except Fault BlockHash
  | bh, [] => .ok bh
  | bh, o :: os => match o.run bh with
    | .error f => .error f
    | .ok bh => AddOp.runAll bh os

/-- The caller passes a block's own hash value. -/
def AddOp.Honest (source : Bytes) : AddOp → Prop
  | .one i h => i + 16 ≤ source.length → h = RollingHash.hash ((source.drop i).take 16)
  | .through _ => True

end Vcd.Spec
