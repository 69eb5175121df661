import Verif.Model.Basic

/-!
# Adler-32 (src/zlib/adler32.c, src/checksum.h)

`uLong` has 32 bits at least; the additions that could exceed them are modelled with 32 bits. That they
never do is `Vcd.Props.adler_no_overflow`, so that a wider `uLong` computes the same.
-/

namespace Vcd

/-- `BASE` (src/zlib/adler32.c:11). -/
def adlerBase : Nat := 65521

/-- `NMAX` (src/zlib/adler32.c:12). -/
def adlerNmax : Nat := 5552

/-- The inner loops `adler += *buf++; sum2 += adler;` (src/zlib/adler32.c:15-19, 126-129, 140-143,
150-158) over the given bytes. The sixteen-fold unrolling of `DO16` performs the same additions in
the same order. Sums wrap at 32 bits. -/
def adlerSums : Nat × Nat → Bytes → Nat × Nat
  | s, [] => s
  | (adler, sum2), b :: bs =>
    adlerSums ((adler + b.toNat) % 4294967296, (sum2 + (adler + b.toNat) % 4294967296) % 4294967296) bs

/-- The loop over blocks of `NMAX` bytes and the final partial block (src/zlib/adler32.c:137-161).
`fuel` bounds the number of blocks; `buf.length` is always enough. -/
def adlerBlocks : (fuel : Nat) → Nat × Nat → Bytes → Nat × Nat
  | 0, s, _ => s
  | fuel + 1, s, buf =>
    if buf.length ≥ adlerNmax then
      let s' := adlerSums s (buf.take adlerNmax)
      adlerBlocks fuel (s'.1 % adlerBase, s'.2 % adlerBase) (buf.drop adlerNmax)
    else if buf.length > 0 then
      let s' := adlerSums s buf
      (s'.1 % adlerBase, s'.2 % adlerBase)
    else s

/-- `adler32(adler, buf, len)` (src/zlib/adler32.c:97-165) for a non-null `buf`, with `MOD` and
`MOD4` as `%` (no `NO_DIVIDE`). -/
def adler32 (adler : Nat) (buf : Bytes) : Nat :=
  let sum2 := (adler >>> 16) &&& 0xffff
  let adler := adler &&& 0xffff
  match buf with
  | [b] =>
    let adler := adler + b.toNat
    let adler := if adler ≥ adlerBase then adler - adlerBase else adler
    let sum2 := sum2 + adler
    let sum2 := if sum2 ≥ adlerBase then sum2 - adlerBase else sum2
    adler ||| (sum2 <<< 16)
  | buf =>
    if buf.length < 16 then
      let s := adlerSums (adler, sum2) buf
      let adler := if s.1 ≥ adlerBase then s.1 - adlerBase else s.1
      let sum2 := s.2 % adlerBase
      adler ||| (sum2 <<< 16)
    else
      let s := adlerBlocks buf.length (adler, sum2) buf
      s.1 ||| (s.2 <<< 16)

/-- `MOD` with `NO_DIVIDE` (src/zlib/adler32.c:22-42): for each shift from 16 down to 0, one conditional subtraction. -/
def modNoDivide (a : Nat) : Nat :=
  [16, 15, 14, 13, 12, 11, 10, 9, 8, 7, 6, 5, 4, 3, 2, 1, 0].foldl
    (fun a k => if a ≥ adlerBase <<< k then a - adlerBase <<< k else a) a

/-- `MOD4` with `NO_DIVIDE` (src/zlib/adler32.c:43-50). -/
def mod4NoDivide (a : Nat) : Nat :=
  [4, 3, 2, 1, 0].foldl (fun a k => if a ≥ adlerBase <<< k then a - adlerBase <<< k else a) a

/-- `adlerBlocks` with the `MOD` of `NO_DIVIDE` (src/zlib/adler32.c:137-161). -/
def adlerBlocksNoDivide : (fuel : Nat) → Nat × Nat → Bytes → Nat × Nat
  | 0, s, _ => s
  | fuel + 1, s, buf =>
    if buf.length ≥ adlerNmax then
      let s' := adlerSums s (buf.take adlerNmax)
      adlerBlocksNoDivide fuel (modNoDivide s'.1, modNoDivide s'.2) (buf.drop adlerNmax)
    else if buf.length > 0 then
      let s' := adlerSums s buf
      (modNoDivide s'.1, modNoDivide s'.2)
    else s

/-- `adler32` compiled with `NO_DIVIDE` (src/zlib/adler32.c:97-165), for a non-null `buf`. -/
def adler32NoDivide (adler : Nat) (buf : Bytes) : Nat :=
  let sum2 := (adler >>> 16) &&& 0xffff
  let adler := adler &&& 0xffff
  match buf with
  | [b] =>
    let adler := adler + b.toNat
    let adler := if adler ≥ adlerBase then adler - adlerBase else adler
    let sum2 := sum2 + adler
    let sum2 := if sum2 ≥ adlerBase then sum2 - adlerBase else sum2
    adler ||| (sum2 <<< 16)
  | buf =>
    if buf.length < 16 then
      let s := adlerSums (adler, sum2) buf
      let adler := if s.1 ≥ adlerBase then s.1 - adlerBase else s.1
      let sum2 := mod4NoDivide s.2
      adler ||| (sum2 <<< 16)
    else
      let s := adlerBlocksNoDivide buf.length (adler, sum2) buf
      s.1 ||| (s.2 <<< 16)

/-- `adler32_range` (src/zlib/adler32.c:89-95): `*min` and `*max`. -/
def adler32Range : Nat × Nat := (0, ((adlerBase - 1) <<< 16) ||| (adlerBase - 1))

/-- `adler32_combine(adler1, adler2, len2)` (src/zlib/adler32.c:168-189) for a length that is not negative. The product and the
sums are below `2^32` (`Vcd.Props.adler_combine_no_overflow`), so their width does not matter. -/
def adler32Combine (adler1 adler2 len2 : Nat) : Nat :=
  let rem := len2 % adlerBase
  let sum1 := adler1 &&& 0xffff
  let sum2 := (rem * sum1) % adlerBase
  let sum1 := sum1 + ((adler2 &&& 0xffff) + adlerBase - 1)
  let sum2 := sum2 + (((adler1 >>> 16) &&& 0xffff) + ((adler2 >>> 16) &&& 0xffff) + adlerBase - rem)
  let sum1 := if sum1 ≥ adlerBase then sum1 - adlerBase else sum1
  let sum1 := if sum1 ≥ adlerBase then sum1 - adlerBase else sum1
  let sum2 := if sum2 ≥ adlerBase <<< 1 then sum2 - adlerBase <<< 1 else sum2
  let sum2 := if sum2 ≥ adlerBase then sum2 - adlerBase else sum2
  sum1 ||| (sum2 <<< 16)

/-- `UpdateAdler32` (src/checksum.h:41-47); the size is cast to the 32-bit `uInt`. -/
def updateAdler32 (partialChecksum : Nat) (buf : Bytes) : Nat :=
  adler32 partialChecksum (buf.take (buf.length % 4294967296))

/-- `ComputeAdler32` (src/checksum.h:34-39): `kNoPartialChecksum` is 0. -/
def computeAdler32 (buf : Bytes) : Nat := updateAdler32 0 buf

end Vcd
