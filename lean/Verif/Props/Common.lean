import Verif.Proof.Common
import Verif.Props.ReferenceExtended

/-!
# C91: deltas that every decoder can read

`CommonFile` (`Spec.Common`) are the deltas as the RFC and the library agree on them, without bits that are not defined.
-/

namespace Vcd.Props
open Vcd Vcd.Spec

/-- C91: a delta of whatever encoder that keeps to what the RFC and the library agree on is decoded to its target by this library, in any
chunks, and by the other decoder. -/
theorem common_deltas_decoded_by_both (s : Settings) (dict delta T : Bytes) (h : CommonFile s dict delta T) :
    ReferenceExtended.decode true dict delta = some T ∧ ∀ cs : List Bytes, cs.flatten = delta → (configured s).decode dict cs = some T :=
  ⟨(Common.file h).2, fun cs hcs => conforming_accepted_partial s dict delta T (Common.file h).1 cs hcs⟩

/-- C91: the other decoder, if it is picky, accepts these deltas and no others (if sizes are below 2^31 and within the limits). -/
theorem picky_decoder_exact (s : Settings) (hs : s.allowTarget = true) (dict delta T : Bytes) (hd : dict.length + T.length < 2 ^ 31)
    (hc : delta.length < 2 ^ 31) (hw : T.length ≤ s.maxWindow) (hf : T.length ≤ s.maxFile) :
    ReferenceExtended.decode true dict delta = some T ↔ CommonFile s dict delta T :=
  ⟨Common.of_file hs hw hf (by omega) (by omega), fun h => (Common.file h).2⟩

/-- C91: the encoder makes such deltas, in all binary formats. -/
theorem encoder_keeps_to_common (dict : Bytes) (hdict : dict.length < 2 ^ 31) (flags : Nat) (hb : flags &&& 4 = 0) (matching : Bool)
    (chunks : List Bytes) (hs : ∀ data ∈ chunks, dict.length + data.length < 2 ^ 31 ∧ data.length + 64 < 2 ^ 31) (s : Settings)
    (hwin : ∀ data ∈ chunks, data.length ≤ s.maxWindow) (hfile : chunks.flatten.length ≤ s.maxFile) :
    ∃ delta, encode dict flags matching chunks = .ok (some delta) ∧ CommonFile s dict delta chunks.flatten := by
  obtain ⟨engine, window, h1, h2, h3, h4⟩ := encoder_protocol dict hdict flags hb matching
  obtain ⟨e', k⟩ := h2 ([.start] ++ chunks.map .chunk ++ [.finish]) (by
    intro data hm
    simp at hm
    exact hs data hm)
  refine ⟨Writer.header flags ++ chunks.flatMap window, ?_, ?_⟩
  · simp only [encode, h1, k, protocol_encode]
    rw [if_pos (by simp)]
    simp [List.flatMap_map]
  · have hw : ∀ (cs : List Bytes) (prev : Bytes), (∀ data ∈ cs, data ∈ chunks) → prev.length + cs.flatten.length ≤ s.maxFile →
        CommonWindows (flags != 0) s dict prev (cs.flatMap window) cs.flatten := by
      intro cs
      induction cs with
      | nil => intro prev _ _; exact .nil
      | cons data cs ih =>
        intro prev hm hl
        simp only [List.flatten_cons, List.length_append] at hl
        have ih' := ih (prev ++ data) (fun d hd => hm d (List.mem_cons_of_mem _ hd)) (by rw [List.length_append]; omega)
        by_cases hne : data = []
        · subst hne
          rw [List.append_nil] at ih'
          rw [List.flatMap_cons, h3, List.nil_append, List.flatten_cons, List.nil_append]
          exact ih'
        · have hmem := hm data List.mem_cons_self
          obtain ⟨_, ⟨R, _, ⟨r1, r2⟩, _⟩, hw⟩ := h4 data hne (hs data hmem).1 (hs data hmem).2
          rw [List.flatMap_cons, List.flatten_cons]
          refine .cons (hw s prev (hwin data hmem) (by omega)) ⟨R, ?_, r2⟩ ih'
          rw [r1]
          by_cases hc : (flags &&& 2 != 0) = true
          · have hx : (flags != 0) = true := by
              simp only [bne_iff_ne, ne_eq] at hc ⊢
              rintro rfl
              exact hc (by decide)
            rw [if_pos hc, if_pos hx]; decide
          · rw [if_neg hc]; split <;> decide
    have hw := hw chunks [] (fun _ h => h) (by simpa using hfile)
    rw [Writer.header]
    by_cases hf : flags = 0
    · subst hf
      rw [if_pos rfl]
      exact .standard hw
    · have hx : (flags != 0) = true := by simpa using hf
      rw [if_neg hf]
      rw [hx] at hw
      exact .extended hw

/-- The hypotheses are met: `mixedDelta`, with a checksum and an interleaved window, is such a delta. -/
example : CommonFile {} [] mixedDelta [0x61, 0x62, 0x63, 0x61, 0x62, 0x63] :=
  (picky_decoder_exact {} rfl [] mixedDelta _ (by decide) (by decide) (by decide) (by decide)).1 (by decide +kernel)

/-- C91: this library accepts more, for example a window indicator with a bit that is not defined, and the RFC's decoder need not. -/
theorem undefined_bit_tolerated : ReferenceExtended.decode true [] (mixedDelta.set 5 0x84) = none ∧
    (configured {}).decode [] [mixedDelta.set 5 0x84] = some [0x61, 0x62, 0x63, 0x61, 0x62, 0x63] := by
  decide +kernel

end Vcd.Props
