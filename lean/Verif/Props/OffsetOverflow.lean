import Verif.Proof.OffsetOverflow

/-!
# Why dictionary and chunk have to be below 2^31 bytes together (C68)
-/

namespace Vcd.Props
open Spec

/-- C68: with a dictionary of 2^31 - 1 bytes, which `Init` and `StartEncoding` take, a chunk of 48 bytes makes both builds add two positive numbers of type
`int` with a sum above 2^31 - 1 (src/blockhash.cc:441, `source_match_offset + starting_offset_`), which is undefined. -/
theorem source_offset_overflows (flags : Nat) (hb : flags &&& 4 = 0) :
    ∃ dict chunk : Bytes, dict.length = 2 ^ 31 - 1 ∧ chunk.length = 48 ∧
      (Encoder.newPair dict flags true).pairCalls [.init, .encoder .start, .encoder (.chunk chunk)] =
        ([⟨true, []⟩, ⟨true, Writer.header flags⟩], some .intOverflow) ∧
      Release.pairCalls (Encoder.newPair dict flags true) [.init, .encoder .start, .encoder (.chunk chunk)] =
        ([⟨true, []⟩, ⟨true, Writer.header flags⟩], some .intOverflow) := by
  obtain ⟨engine, _, he, _⟩ := Engine.init_ok (dict := List.replicate (2 ^ 31 - 1) 0) (by rw [List.length_replicate]; decide)
  exact ⟨_, twiceTarget, List.length_replicate, by decide, Encoder.overflow_calls hb he (Engine.encode_overflows he)⟩

end Vcd.Props
