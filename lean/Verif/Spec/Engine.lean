import Verif.Spec.Exec
import Verif.Spec.BlockHash
import Verif.Model.Engine

/-!
# What the differencing engine may tell its coder
-/

namespace Vcd.Spec

/-- The call that describes an instruction. -/
def Op.call : Op → CoderCall
  | .add bytes => .add bytes
  | .run b n => .run n b
  | .copy a n => .copy (a : Int) n

/-- An instruction the engine may emit when `here` is the address of the next target byte, for a
dictionary of `dictSize` bytes: a non-empty ADD, or a COPY of at least 32 bytes that starts below `here`
and either lies inside the dictionary or, only if target matching is on, starts in the target. In
particular no COPY starts in the dictionary and extends into the target ("a third type of COPY
instruction", src/google/vcencoder.h:93-98). -/
def Emittable (dictSize : Nat) (matching : Bool) (here : Nat) : Op → Prop
  | .add bytes => bytes ≠ []
  | .run _ _ => False
  | .copy a n => 32 ≤ n ∧ a < here ∧ (a + n ≤ dictSize ∨ matching = true ∧ dictSize ≤ a)

/-- The blocks among the first `n` of some data that share a bucket with the block `b`: the hash values agree modulo the
size of the table (C36). -/
def sharing (data : Bytes) (n : Nat) (b : Bytes) : List Nat :=
  (List.range n).filter fun k =>
    (RollingHash.hash (block data k)).toNat % calcTableSize data.length ==
      (RollingHash.hash b).toNat % calcTableSize data.length

/-- Block `k` is within the limits of a search for the block `b`: no more than 17 blocks share the bucket of `b`, or at
most 16 come before `k` there, none of which is equal to `b`. -/
def InReach (data : Bytes) (n : Nat) (b : Bytes) (k : Nat) : Prop :=
  (sharing data n b).length ≤ 17 ∨
    ∃ pre post, sharing data n b = pre ++ k :: post ∧ pre.length ≤ 16 ∧ ∀ j ∈ pre, block data j ≠ b

/-- When the target has been encoded up to position `p`, no range of 32 bytes or more around position `c` of the target
is equal to a range around one of the first `n` blocks of `data`, as far as the search reaches. -/
def NoMatchAt (data target : Bytes) (n p c : Nat) : Prop :=
  ∀ k s t size, k < n → InReach data n ((target.drop c).take 16) k → p ≤ t → 16 * k + t = s + c →
    Matches data target c s t size → size < 32

end Vcd.Spec
