import Verif.Proof.WordSize
import Verif.Props.Decoder

/-!
# C71: builds of the decoder with another `size_t`

`Word.calls W` is the decoder of a machine whose `size_t` has `W` values: every sum and every difference of two sizes is taken
modulo `W`, and a read that such a result would send outside its buffer is a fault (`Verif.Model.WordSize`). `Decoder.calls` counts
in natural numbers.
-/

namespace Vcd.Props
open Vcd Vcd.Spec

/-- C71: if `size_t` has at least 32 bits and the limits asked for are `size_t` values, any calls at all, with any data, get the same
answers, the same output and the same faults (none) as with unbounded integers, unless the limit on the size of the file is lowered
in the middle of a decode. No sum or difference of sizes in the decoder is wrong because it wrapped around. -/
theorem size_t_width_does_not_matter (W : Nat) (hW : 2 ^ 32 ≤ W) (cs : List DecoderCall)
    (hn : ∀ n, .setMaxFile n ∈ cs → n < W) (hk : LimitKept false (2 ^ 26) cs) :
    Word.calls W {} cs = ({} : Decoder).calls cs :=
  (Word.CallInv.new hW).calls_eq hW hk hn

/-- C71: a 32-bit build and a 64-bit build of the decoder cannot be told apart. -/
theorem builds_with_32_and_64_bits_agree (cs : List DecoderCall) (hn : ∀ n, .setMaxFile n ∈ cs → n < 2 ^ 32)
    (hk : LimitKept false (2 ^ 26) cs) : Word.calls (2 ^ 32) {} cs = Word.calls (2 ^ 64) {} cs := by
  rw [size_t_width_does_not_matter _ (by decide) cs hn hk,
    size_t_width_does_not_matter _ (by decide) cs (fun n h => Nat.lt_trans (hn n h) (by decide)) hk]

/-- C71: so wrap-around sends no read of a 32-bit build outside its buffers: it has the faults C04 and C05 describe and no others. -/
theorem faults_with_32_bits (cs : List DecoderCall) (hn : ∀ n, .setMaxFile n ∈ cs → n < 2 ^ 32) (hk : LimitKept false (2 ^ 26) cs)
    (f : Fault) (h : Word.calls (2 ^ 32) {} cs = .error f) :
    f = .nearOverflow ∨ (f = .cacheOob ∧
      ∃ before dict session after, cs = before ++ .start dict :: (session ++ after) ∧ .finish ∉ session ∧
        AnnouncesNear254 (streamOf session)) := by
  rw [size_t_width_does_not_matter _ (by decide) cs hn hk] at h
  exact decoder_faults_partial cs f h

/-- C71: the check made before the lengths of the sections are added up finds exactly the sums that do not fit in a `size_t`. -/
theorem overflow_check_exact (W a b c d : Nat) (hb : b < W) (hc : c < W) (hd : d < W) :
    Word.sumWouldOverflow4 W a b c d = true ↔ W ≤ a + b + c + d :=
  Word.sumWouldOverflow4_iff hb hc hd

/-- A window whose lengths of sections are 2147483647, 2147483647 and 5. With its header they make 2^32 + 16, and it says that it has
16 bytes. -/
def wrappingDelta : Bytes :=
  [0xD6, 0xC3, 0xC4, 0, 0, 0, 16, 1, 0, 0x87, 0xFF, 0xFF, 0xFF, 0x7F, 0x87, 0xFF, 0xFF, 0xFF, 0x7F, 5, 1, 2, 3]

/-- Calls that meet the hypotheses: two good decodes, with a limit, and one of a file made to wrap. With 32 bits, the sum of the lengths
is the length announced, and still the file is refused. -/
example :
    let cs : List DecoderCall :=
      [.setMaxFile (2 ^ 32 - 1), .start [], .chunk stdDelta, .finish, .setMaxFile 100, .start [], .setMaxFile 200, .chunk stdDelta,
        .finish, .start [], .chunk wrappingDelta, .finish]
    (∀ n, .setMaxFile n ∈ cs → n < 2 ^ 32) ∧ LimitKept false (2 ^ 26) cs ∧
      (Word.calls (2 ^ 32) {} cs).toOption.map (fun p => p.1.map fun r => (r.ret, r.out)) =
        some [(true, []), (true, []), (true, [0x61, 0x62, 0x63]), (true, []), (true, []), (true, []), (true, []),
          (true, [0x61, 0x62, 0x63]), (true, []), (true, []), (false, []), (false, [])] ∧
      Word.add (2 ^ 32) (Word.add (2 ^ 32) (Word.add (2 ^ 32) 13 2147483647) 2147483647) 5 = 16 := by
  refine ⟨?_, ?_, by decide +kernel, by decide +kernel⟩
  · intro n h
    simp only [List.mem_cons, DecoderCall.setMaxFile.injEq, reduceCtorEq, false_or, List.not_mem_nil, or_false] at h
    rcases h with rfl | rfl | rfl <;> decide
  · simp [LimitKept]

end Vcd.Props
