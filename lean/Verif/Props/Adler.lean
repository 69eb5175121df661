import Verif.Proof.Adler

/-!
# C10, C31: Adler-32
-/

namespace Vcd.Props
open Vcd Vcd.Spec

/-- C31: from any legal starting value, the implementation computes the defining recurrence. -/
theorem adler_is_definition (low high : Nat) (hl : low < 65521) (hh : high < 65521)
    (buf : Bytes) (hlen : buf.length < 4294967296) :
    updateAdler32 (adlerValue (low, high)) buf = adlerValue (adlerRun (low, high) buf) ∧
    computeAdler32 buf = adlerOf buf := by
  refine ⟨?_, computeAdler32_eq buf hlen⟩
  simp only [updateAdler32, Nat.mod_eq_of_lt hlen, List.take_length]
  exact adler32_spec low high hl hh buf

/-- C31: the checksum of a concatenation may be computed piecewise. -/
theorem adler_piecewise (a b : Bytes) (hlen : (a ++ b).length < 4294967296) :
    updateAdler32 (computeAdler32 a) b = computeAdler32 (a ++ b) := by
  have hl := hlen
  rw [List.length_append] at hl
  rw [computeAdler32_eq a (by omega), computeAdler32_eq (a ++ b) hlen]
  have hr := adlerRun_lt (0, 0) ⟨by decide, by decide⟩ a
  have := (adler_is_definition _ _ hr.1 hr.2 b (by omega)).1
  rw [adlerOf, adlerOf, adlerRun_append]
  exact this

/-- C31: no accumulator ever exceeds 32 bits: within a block of at most `NMAX` bytes, started from
reduced sums, every intermediate value of both sums is what exact arithmetic gives and below `2^32`. -/
theorem adler_no_overflow (low high : Nat) (hl : low < 65521) (hh : high < 65521)
    (block front rest : Bytes) (hb : block.length ≤ adlerNmax) (hsplit : block = front ++ rest) :
    adlerSums (low, high) front = adlerExact (low, high) front ∧
    (adlerExact (low, high) front).1 < 4294967296 ∧ (adlerExact (low, high) front).2 < 4294967296 := by
  have h := adlerExact_small front (low, high) ⟨hl, hh⟩ (by rw [hsplit] at hb; simp at hb; omega)
  exact ⟨adlerSums_exact _ _ h.1 h.2, h⟩

/-- C10: two strings of equal length that differ in exactly one byte have different checksums. -/
theorem adler_detects_one_byte (front rest : Bytes) (x y : UInt8) (hne : x ≠ y)
    (hlen : (front ++ x :: rest).length < 4294967296) :
    computeAdler32 (front ++ x :: rest) ≠ computeAdler32 (front ++ y :: rest) := by
  have hlen' : (front ++ y :: rest).length < 4294967296 := by simpa using hlen
  rw [computeAdler32_eq _ hlen, computeAdler32_eq _ hlen']
  intro h
  have h1 := adlerRun_lt (0, 0) ⟨by decide, by decide⟩ (front ++ x :: rest)
  have h2 := adlerRun_lt (0, 0) ⟨by decide, by decide⟩ (front ++ y :: rest)
  have h3 := congrArg Prod.fst (adlerValue_inj h1.1 h2.1 h)
  rw [adlerRun_low _ _ (by decide), adlerRun_low _ _ (by decide)] at h3
  simp only [List.map_append, List.map_cons, List.sum_append, List.sum_cons] at h3
  have hx := x.toNat_lt
  have hy := y.toNat_lt
  apply hne
  apply UInt8.toNat_inj.1
  omega

/-- C10: two strings of equal length that differ in exactly two bytes, at positions whose distance `mid.length + 1`
is no multiple of 65521, have different checksums. -/
theorem adler_detects_two_bytes (front mid rest : Bytes) (x y x' y' : UInt8) (hx : x ≠ x')
    (hd : (mid.length + 1) % 65521 ≠ 0) (hlen : (front ++ x :: (mid ++ y :: rest)).length < 4294967296) :
    computeAdler32 (front ++ x :: (mid ++ y :: rest)) ≠ computeAdler32 (front ++ x' :: (mid ++ y' :: rest)) := by
  intro h
  rcases Nat.le_total x'.toNat x.toNat with hle | hle
  · rcases ((adler_two front mid rest x y x' y' hle hlen).1 h).2 with h1 | h1
    · exact hx h1
    · exact hd h1
  · rcases ((adler_two front mid rest x' y' x y hle (by simpa using hlen)).1 h.symm).2 with h1 | h1
    · exact hx h1.symm
    · exact hd h1

/-- C10: it is not so at distances that are multiples of 65521, if one byte grows by what the other shrinks. -/
theorem adler_misses_distant_bytes (front mid rest : Bytes) (x y : UInt8) (hd : (mid.length + 1) % 65521 = 0)
    (hlen : (front ++ x :: (mid ++ y :: rest)).length < 4294967296) :
    computeAdler32 (front ++ x :: (mid ++ y :: rest)) = computeAdler32 (front ++ y :: (mid ++ x :: rest)) := by
  rcases Nat.le_total y.toNat x.toNat with hle | hle
  · exact (adler_two front mid rest x y y x hle hlen).2 ⟨Nat.add_comm _ _, Or.inr hd⟩
  · exact ((adler_two front mid rest y x x y hle (by simpa using hlen)).2 ⟨Nat.add_comm _ _, Or.inr hd⟩).symm

/-- C10: three changed bytes can go unnoticed. -/
theorem adler_misses_three_bytes : ∃ a b : Bytes, a.length = b.length ∧ a ≠ b ∧ computeAdler32 a = computeAdler32 b :=
  ⟨[1, 0, 1], [0, 2, 0], by decide, by decide, by decide +kernel⟩

/-- Values computed by hand for "abc" and its corruption "abd"; a 20-byte buffer takes the block
path. -/
example : computeAdler32 [97, 98, 99] = 0x024A0126 ∧ computeAdler32 [97, 98, 100] = 0x024B0127 ∧
    computeAdler32 (List.replicate 20 255) = adlerOf (List.replicate 20 255) := by decide +kernel

/-- Two bytes that are swapped, next to each other and three apart, are noticed; a list of the length that
`adler_misses_distant_bytes` needs is easily had. -/
example : computeAdler32 [97, 98, 99, 100] ≠ computeAdler32 [98, 97, 99, 100] ∧
    computeAdler32 [97, 98, 99, 100] ≠ computeAdler32 [100, 98, 99, 97] ∧
    ((List.replicate 65520 (0 : UInt8)).length + 1) % 65521 = 0 :=
  ⟨adler_detects_two_bytes [] [] [99, 100] 97 98 98 97 (by decide) (by decide) (by decide),
   adler_detects_two_bytes [] [98, 99] [] 97 100 100 97 (by decide) (by decide) (by decide), by rw [List.length_replicate]⟩

/-- C31: a build with `NO_DIVIDE`, which has conditional subtractions for the divisions, computes the same. -/
theorem adler_no_divide (adler : Nat) (buf : Bytes) : adler32NoDivide adler buf = adler32 adler buf :=
  adler32NoDivide_eq adler buf

/-- C31: `adler32_combine` gives the checksum of a concatenation from the checksums of its two parts and the length of the
second one, with the starting value 1 of zlib. -/
theorem adler_combine (a b : Bytes) : adler32Combine (adler32 1 a) (adler32 1 b) b.length = adler32 1 (a ++ b) := by
  have h : ∀ buf, adler32 1 buf = adlerValue (adlerRun (1, 0) buf) := fun buf => adler32_spec 1 0 (by decide) (by decide) buf
  rw [h, h, h]
  exact adler32Combine_eq a b

/-- C31: with the starting value 0, which is the one this library uses, it does not. -/
theorem adler_combine_other_start :
    ∃ a b : Bytes, adler32Combine (computeAdler32 a) (computeAdler32 b) b.length ≠ computeAdler32 (a ++ b) :=
  ⟨[1], [1], by decide +kernel⟩

/-- C31: the intermediate values of `adler32_combine` have 32 bits. -/
theorem adler_combine_no_overflow (adler1 adler2 len2 : Nat) :
    len2 % 65521 * (adler1 &&& 0xffff) < 4294967296 ∧
    (adler1 &&& 0xffff) + ((adler2 &&& 0xffff) + 65521 - 1) < 4294967296 ∧
    65521 + (((adler1 >>> 16) &&& 0xffff) + ((adler2 >>> 16) &&& 0xffff) + 65521) < 4294967296 := by
  have e : ∀ x : Nat, x &&& 0xffff = x % 65536 := fun x => Nat.and_two_pow_sub_one_eq_mod x 16
  have h1 : len2 % 65521 * (adler1 % 65536) ≤ 65520 * 65535 := Nat.mul_le_mul (by omega) (by omega)
  simp only [e]
  omega

/-- C31: checksums are in the range that `adler32_range` gives, whatever legal value they start from; both ends are attained
by the values of strings. -/
theorem adler_in_range (low high : Nat) (hl : low < 65521) (hh : high < 65521) (buf : Bytes) :
    adler32Range.1 ≤ adler32 (adlerValue (low, high)) buf ∧ adler32 (adlerValue (low, high)) buf ≤ adler32Range.2 ∧
    adler32 0 [] = adler32Range.1 ∧ adler32 (adlerValue (65520, 65520)) [] = adler32Range.2 := by
  rw [adler32_spec low high hl hh]
  have h := adlerRun_lt (low, high) ⟨hl, hh⟩ buf
  have e : adler32Range = (0, 65520 * 65536 + 65520) := by decide
  rw [e]
  refine ⟨Nat.zero_le _, ?_, by decide, by decide⟩
  simp only [adlerValue]
  omega

example : adler32Combine (adler32 1 [97, 98]) (adler32 1 [99, 100, 101]) 3 = adler32 1 [97, 98, 99, 100, 101] ∧
    adler32NoDivide 1 (List.replicate 20 255) = adler32 1 (List.replicate 20 255) := by decide +kernel

end Vcd.Props
