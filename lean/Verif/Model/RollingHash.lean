import Verif.Model.Basic

/-!
# The rolling hash (src/rolling_hash.h)

All values are `uint32_t`, modelled by `UInt32` with its wrap-around arithmetic. `window_size` is a
template parameter; here it is the argument `w`.
-/

namespace Vcd.RollingHash

/-- `RollingHashUtil::kMult` (src/rolling_hash.h:34). -/
def kMult : UInt32 := 257

/-- `RollingHashUtil::kBase` (src/rolling_hash.h:39). -/
def kBase : UInt32 := 8388608

/-- `RollingHashUtil::ModBase` (src/rolling_hash.h:42-44). -/
def modBase (operand : UInt32) : UInt32 := operand &&& (kBase - 1)

/-- `RollingHashUtil::FindModBaseInverse` (src/rolling_hash.h:51-63). -/
def findModBaseInverse (operand : UInt32) : UInt32 := modBase (0 - operand)

/-- `RollingHashUtil::HashStep` (src/rolling_hash.h:69-72). -/
def hashStep (partialHash : UInt32) (nextByte : UInt8) : UInt32 :=
  modBase (partialHash * kMult + nextByte.toUInt32)

/-- `RollingHash<w>::Hash` (src/rolling_hash.h:116-122) with `HashFirstTwoBytes`
(src/rolling_hash.h:80-83). The argument holds the bytes of the window; `w ≥ 2` is a compile-time
assertion (src/rolling_hash.h:177-178), so that windows of fewer than two bytes, to which the model
gives the hash 0, do not occur. -/
def hash : Bytes → UInt32
  | b0 :: b1 :: rest => rest.foldl hashStep (b0.toUInt32 * kMult + b1.toUInt32)
  | _ => 0

/-- The loop computing `multiplier` in `RollingHash<w>::Init` (src/rolling_hash.h:194-198), after `n`
iterations. -/
def multiplier : Nat → UInt32
  | 0 => 1
  | n + 1 => modBase (multiplier n * kMult)

/-- The loop filling the table in `RollingHash<w>::Init` (src/rolling_hash.h:216-224): `n` entries
are still to be computed. -/
def removeTableLoop (mult : UInt32) : (n : Nat) → (byteTimesMultiplier : UInt32) → List UInt32
  | 0, _ => []
  | n + 1, x => findModBaseInverse x :: removeTableLoop mult n (modBase (x + mult))

/-- `remove_table_` as filled by `RollingHash<w>::Init` (src/rolling_hash.h:176-227). -/
def removeTable (w : Nat) : List UInt32 := removeTableLoop (multiplier (w - 1)) 256 0

/-- `RollingHash<w>::RemoveFirstByteFromHash` (src/rolling_hash.h:150-153). The table has 256
entries, so the default of `getD` is never used. -/
def removeFirstByte (w : Nat) (fullHash : UInt32) (firstByte : UInt8) : UInt32 :=
  modBase (fullHash + (removeTable w).getD firstByte.toNat 0)

/-- `RollingHash<w>::UpdateHash` (src/rolling_hash.h:137-142). -/
def updateHash (w : Nat) (oldHash : UInt32) (oldFirstByte newLastByte : UInt8) : UInt32 :=
  hashStep (removeFirstByte w oldHash oldFirstByte) newLastByte

end Vcd.RollingHash
