import Verif.Model.Basic

/-!
# Specification of Adler-32

The definition (RFC 1950): two sums modulo 65521, `low` of the bytes and `high` of the successive
values of `low`. open-vcdiff starts both from 0 instead of the customary `low = 1`.
-/

namespace Vcd.Spec

/-- Process bytes one by one, reducing modulo 65521 after every byte. -/
def adlerStep (s : Nat × Nat) (b : UInt8) : Nat × Nat :=
  let low := (s.1 + b.toNat) % 65521
  (low, (s.2 + low) % 65521)

/-- The two sums after all bytes. -/
def adlerRun (s : Nat × Nat) (bs : Bytes) : Nat × Nat := bs.foldl adlerStep s

/-- The two sums without any reduction. -/
def adlerExact : Nat × Nat → Bytes → Nat × Nat
  | s, [] => s
  | (low, high), b :: bs => adlerExact (low + b.toNat, high + (low + b.toNat)) bs

/-- The checksum value for a pair of sums. -/
def adlerValue (s : Nat × Nat) : Nat := s.2 * 65536 + s.1

/-- The Adler-32 variant used in VCDIFF windows. -/
def adlerOf (bs : Bytes) : Nat := adlerValue (adlerRun (0, 0) bs)

end Vcd.Spec
