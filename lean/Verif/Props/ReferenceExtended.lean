import Verif.Proof.ReferenceExtended
import Verif.Props.Reference

/-!
# C90: other decoders for the format extensions

`Spec.ReferenceExtended.decode` is the decoder of C89 with the interleaved format and checksums.
-/

namespace Vcd.Props
open Vcd Vcd.Spec

/-- C90: what the encoder outputs, in any of the binary formats, is decoded to the target by the other decoder: for every dictionary and
chunks within the 31-bit sizes of the format, with target matching on or off. -/
theorem extended_decoded_elsewhere (dict : Bytes) (hdict : dict.length < 2 ^ 31) (flags : Nat) (hb : flags &&& 4 = 0) (matching : Bool)
    (chunks : List Bytes) (hs : ∀ data ∈ chunks, dict.length + data.length < 2 ^ 31 ∧ data.length + 64 < 2 ^ 31) :
    ∃ delta, encode dict flags matching chunks = .ok (some delta) ∧ ReferenceExtended.decode true dict delta = some chunks.flatten := by
  by_cases hf : flags = 0
  · subst hf
    obtain ⟨delta, h1, h2⟩ := standard_decoded_elsewhere dict hdict matching chunks hs
    refine ⟨delta, h1, ?_⟩
    unfold ReferenceExtended.decode
    split
    · exfalso
      simp [Reference.decode] at h2
    · exact h2
  obtain ⟨engine, window, h1, h2, h3, h4⟩ := encoder_protocol dict hdict flags hb matching
  obtain ⟨e', k⟩ := h2 ([.start] ++ chunks.map .chunk ++ [.finish]) (by
    intro data hm
    simp at hm
    exact hs data hm)
  refine ⟨Writer.header flags ++ chunks.flatMap window, ?_, ?_⟩
  · simp only [encode, h1, k, protocol_encode]
    rw [if_pos (by simp)]
    simp [List.flatMap_map]
  · have hx : (flags != 0) = true := by simpa using hf
    rw [hx] at h4
    have hr := ReferenceExtended.chunks_of_code (dict := dict) h3 chunks (fun data hm hne => by
      obtain ⟨_, ⟨R, _, ⟨r1, r2⟩, _⟩, hw⟩ := h4 data hne (hs data hm).1 (hs data hm).2
      refine ⟨⟨R, ?_, r2⟩, fun prev => ⟨{ maxWindow := data.length, maxFile := prev.length + data.length, allowTarget := true }, ?_⟩⟩
      · rw [r1]; split <;> decide
      · exact hw _ prev (Nat.le_refl _) (Nat.le_refl _)) _ [] (Nat.le_refl _)
    rw [Writer.header, if_neg hf]
    exact hr

/-- The hypotheses are met, for example in the interleaved format with checksums. -/
example : ∃ delta, encode (List.replicate 20 7) 3 true [List.replicate 100000 7, [1, 2, 3]] = .ok (some delta) ∧
    ReferenceExtended.decode true (List.replicate 20 7) delta = some [List.replicate 100000 7, [1, 2, 3]].flatten :=
  extended_decoded_elsewhere _ (by rw [List.length_replicate]; decide) 3 rfl true _ (by
    intro data hm
    simp only [List.mem_cons, List.not_mem_nil, or_false] at hm
    rcases hm with rfl | rfl
    · rw [List.length_replicate, List.length_replicate]; decide
    · rw [List.length_replicate]; decide)

/-- C90: this library and the other decoder, if it is picky, never give different results, whatever the bytes, the dictionary, the settings
and the chunks. -/
theorem extended_decoders_never_disagree (s : Settings) (dict T T' : Bytes) (cs : List Bytes)
    (h : (configured s).decode dict cs = some T) (h' : ReferenceExtended.decode true dict cs.flatten = some T') : T' = T :=
  ReferenceExtended.file_of_code (accepted_follows_grammar_partial s dict T cs h) h'

/-- C90: what the picky decoder accepts, this library accepts with the same result, in any chunks, unless it goes beyond the limits that
have been set or the 31-bit sizes of this library. -/
theorem extended_accepted_elsewhere_accepted (s : Settings) (hs : s.allowTarget = true) (dict T : Bytes) (cs : List Bytes)
    (hd : dict.length + T.length < 2 ^ 31) (hc : cs.flatten.length < 2 ^ 31) (hw : T.length ≤ s.maxWindow) (hf : T.length ≤ s.maxFile)
    (h : ReferenceExtended.decode true dict cs.flatten = some T) : (configured s).decode dict cs = some T :=
  conforming_accepted_partial s dict _ T (ReferenceExtended.sound (.inr rfl) hs hw hf (by omega) (by omega) h) cs rfl

/-- C90: what the other decoder accepts, picky or not, follows the grammar of RFC 3284 with the extensions. -/
theorem extended_accepted_elsewhere_follows_grammar (picky : Bool) (s : Settings) (hs : s.allowTarget = true) (dict delta T : Bytes)
    (hd : dict.length + T.length < 2 ^ 31) (hc : delta.length < 2 ^ 31) (hw : T.length ≤ s.maxWindow) (hf : T.length ≤ s.maxFile)
    (h : ReferenceExtended.decode picky dict delta = some T) : FileCode rfc s dict delta T :=
  ReferenceExtended.sound (.inl rfl) hs hw hf (by omega) (by omega) h

/-- An interleaved window with a checksum, for `abcabc`: an ADD of `abc` and a COPY of 3 bytes, in one section. -/
def mixedDelta : Bytes :=
  [0xD6, 0xC3, 0xC4, 0x53, 0, 4, 16, 6, 0, 0, 7, 0, 192, 152, 132, 76, 4, 0x61, 0x62, 0x63, 19, 3, 0]

/-- The hypotheses of the three theorems are met: both decode `mixedDelta`. -/
example : (configured {}).decode [] [mixedDelta] = some [0x61, 0x62, 0x63, 0x61, 0x62, 0x63] ∧
    ReferenceExtended.decode true [] mixedDelta = some [0x61, 0x62, 0x63, 0x61, 0x62, 0x63] := by
  decide +kernel

/-- And both refuse it with another checksum. -/
example : (configured {}).decode [] [mixedDelta.set 15 77] = none ∧ ReferenceExtended.decode true [] (mixedDelta.set 15 77) = none := by
  decide +kernel

/-- A delta with one interleaved window for `a`, followed in that window by instructions that produce nothing: ADDs, and COPYs of no
bytes at address 0. These bytes can be read as a window, too, which makes 115 zero bytes. -/
def ambiguousDelta : Bytes :=
  [0xD6, 0xC3, 0xC4, 0x53, 0, 0, 38, 1, 0, 0, 33, 0, 2, 0x61] ++
    [1, 0, 131, 0, 56, 115, 0, 0, 51, 0, 0, 19, 0, 0, 19, 0, 0, 19, 0, 0, 19, 0, 0, 19, 0, 0, 19, 0, 0, 1, 0]

/-- C90, finding: if the other decoder is not picky, the two can disagree. As the RFC and the extensions have it, `ambiguousDelta` stands
for `a`, and that is what the other decoder makes of it. The library refuses it in one chunk, but accepts it in two: it stops reading the
window as soon as its target is complete, takes the rest of it for another window, and outputs a different target. -/
theorem library_reads_another_target :
    let dict : Bytes := List.replicate 384 7
    FileCode rfc {} dict ambiguousDelta [0x61] ∧ ReferenceExtended.decode false dict ambiguousDelta = some [0x61] ∧
    ReferenceExtended.decode true dict ambiguousDelta = none ∧ (configured {}).decode dict [ambiguousDelta] = none ∧
    (configured {}).decode dict [ambiguousDelta.take 14, ambiguousDelta.drop 14] = some (0x61 :: List.replicate 115 0) := by
  intro dict
  have h : ReferenceExtended.decode false dict ambiguousDelta = some [0x61] := by decide +kernel
  exact ⟨extended_accepted_elsewhere_follows_grammar false {} rfl dict _ _ (by decide +kernel) (by decide) (by decide) (by decide) h, h,
    by decide +kernel, by decide +kernel, by decide +kernel⟩

end Vcd.Props
