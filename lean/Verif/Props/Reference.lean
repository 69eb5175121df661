import Verif.Proof.ReferenceSound
import Verif.Props.Encoder
import Verif.Props.Rfc

/-!
# C89: other decoders for the standard format

`Spec.Reference.decode` is a decoder written from RFC 3284 alone, which refuses everything it does not have to know.
-/

namespace Vcd.Props
open Vcd Vcd.Spec

/-- C89: what the encoder outputs if no format extensions are asked for is decoded to the target by the other decoder: for every
dictionary and chunks within the 31-bit sizes of the format, with target matching on or off. -/
theorem standard_decoded_elsewhere (dict : Bytes) (hdict : dict.length < 2 ^ 31) (matching : Bool) (chunks : List Bytes)
    (hs : ∀ data ∈ chunks, dict.length + data.length < 2 ^ 31 ∧ data.length + 64 < 2 ^ 31) :
    ∃ delta, encode dict 0 matching chunks = .ok (some delta) ∧ Reference.decode true dict delta = some chunks.flatten := by
  obtain ⟨engine, window, h1, h2, h3, h4⟩ := encoder_protocol dict hdict 0 rfl matching
  obtain ⟨e', k⟩ := h2 ([.start] ++ chunks.map .chunk ++ [.finish]) (by
    intro data hm
    simp at hm
    exact hs data hm)
  refine ⟨Writer.header 0 ++ chunks.flatMap window, ?_, ?_⟩
  · simp only [encode, h1, k, protocol_encode]
    rw [if_pos (by simp)]
    simp [List.flatMap_map]
  · have hr := reference_chunks (picky := true) (dict := dict) h3 chunks (fun data hm hne => by
      obtain ⟨_, ⟨R, _, ⟨r1, r2⟩, _⟩, hw⟩ := h4 data hne (hs data hm).1 (hs data hm).2
      refine ⟨⟨R, ?_, r2⟩, fun prev => ⟨{ maxWindow := data.length, maxFile := prev.length + data.length, allowTarget := true }, ?_⟩⟩
      · rw [r1]; decide
      · exact hw _ prev (Nat.le_refl _) (Nat.le_refl _)) _ [] (Nat.le_refl _)
    exact hr

/-- The hypotheses are met, for example by a dictionary of 20 bytes and two chunks, one of them long. -/
example : ∃ delta, encode (List.replicate 20 7) 0 true [List.replicate 100000 7, [1, 2, 3]] = .ok (some delta) ∧
    Reference.decode true (List.replicate 20 7) delta = some [List.replicate 100000 7, [1, 2, 3]].flatten :=
  standard_decoded_elsewhere _ (by rw [List.length_replicate]; decide) true _ (by
    intro data hm
    simp only [List.mem_cons, List.not_mem_nil, or_false] at hm
    rcases hm with rfl | rfl
    · rw [List.length_replicate, List.length_replicate]; decide
    · rw [List.length_replicate]; decide)

/-- C89: the two decoders never give different results. Whatever the bytes, the dictionary, the settings and the chunks: if this
library accepts them and the other decoder does, the targets are the same. -/
theorem decoders_never_disagree (picky : Bool) (s : Settings) (dict T T' : Bytes) (cs : List Bytes)
    (h : (configured s).decode dict cs = some T) (h' : Reference.decode picky dict cs.flatten = some T') : T' = T :=
  reference_file (accepted_follows_grammar_partial s dict T cs h) h'

/-- C89: what the other decoder accepts, this library accepts with the same result, in any chunks, unless it goes beyond the limits that
have been set or the 31-bit sizes of this library. This is the picky one, which takes nothing after the end of the target in a window. -/
theorem accepted_elsewhere_accepted (s : Settings) (hs : s.allowTarget = true) (dict T : Bytes) (cs : List Bytes)
    (hd : dict.length + T.length < 2 ^ 31) (hc : cs.flatten.length < 2 ^ 31) (hw : T.length ≤ s.maxWindow) (hf : T.length ≤ s.maxFile)
    (h : Reference.decode true dict cs.flatten = some T) : (configured s).decode dict cs = some T :=
  conforming_accepted_partial s dict _ T (reference_sound (.inr rfl) hs hw hf (by omega) (by omega) h) cs rfl

/-- C89: what the other decoder accepts, picky or not, follows the grammar of RFC 3284 with which C03 and C04 are stated. -/
theorem accepted_elsewhere_follows_grammar (picky : Bool) (s : Settings) (hs : s.allowTarget = true) (dict delta T : Bytes)
    (hd : dict.length + T.length < 2 ^ 31) (hc : delta.length < 2 ^ 31) (hw : T.length ≤ s.maxWindow) (hf : T.length ≤ s.maxFile)
    (h : Reference.decode picky dict delta = some T) : FileCode rfc s dict delta T :=
  reference_sound (.inl rfl) hs hw hf (by omega) (by omega) h

/-- Two windows, `abc` and a COPY of it with overlap from the target of the first. -/
def elsewhereDelta : Bytes :=
  [0xD6, 0xC3, 0xC4, 0, 0, 0, 9, 3, 0, 3, 1, 0, 0x61, 0x62, 0x63, 4, 2, 3, 0, 8, 7, 0, 0, 2, 1, 19, 7, 0]

/-- The other decoder, picky or not, accepts it, and so does the library, byte by byte. -/
example : Reference.decode true [] elsewhereDelta = some [0x61, 0x62, 0x63, 0x61, 0x62, 0x63, 0x61, 0x62, 0x63, 0x61] ∧
    Reference.decode false [] elsewhereDelta = some [0x61, 0x62, 0x63, 0x61, 0x62, 0x63, 0x61, 0x62, 0x63, 0x61] ∧
    (configured {}).decode [] (elsewhereDelta.map ([·])) = some [0x61, 0x62, 0x63, 0x61, 0x62, 0x63, 0x61, 0x62, 0x63, 0x61] := by
  have h : Reference.decode true [] elsewhereDelta = some [0x61, 0x62, 0x63, 0x61, 0x62, 0x63, 0x61, 0x62, 0x63, 0x61] := by
    decide +kernel
  have e : (elsewhereDelta.map ([·])).flatten = elsewhereDelta := by decide
  exact ⟨h, by decide +kernel, accepted_elsewhere_accepted {} rfl [] _ _ (by decide) (by decide) (by decide) (by decide) (by rw [e]; exact h)⟩

/-- It is not for nothing that the other decoder has to be picky: it otherwise accepts `abc` followed by an ADD of no bytes, as it may
by the RFC, and the library does not. -/
theorem empty_add_refused :
    Reference.decode false [] [0xD6, 0xC3, 0xC4, 0, 0, 0, 11, 3, 0, 3, 3, 0, 0x61, 0x62, 0x63, 4, 1, 0] = some [0x61, 0x62, 0x63] ∧
    Reference.decode true [] [0xD6, 0xC3, 0xC4, 0, 0, 0, 11, 3, 0, 3, 3, 0, 0x61, 0x62, 0x63, 4, 1, 0] = none ∧
    (configured {}).decode [] [[0xD6, 0xC3, 0xC4, 0, 0, 0, 11, 3, 0, 3, 3, 0, 0x61, 0x62, 0x63, 4, 1, 0]] = none := by
  refine ⟨by decide +kernel, by decide +kernel, by decide +kernel⟩

end Vcd.Props
