import Verif.Proof.Dictionary
import Verif.Proof.OtherDictionary
import Verif.Props.Encoder
import Verif.Props.Stream

/-!
# C64: decoding with another dictionary
-/

namespace Vcd.Props
open Vcd Vcd.Spec

/-- C64: what a decoder makes of a delta does not change if more bytes are put after the dictionary. This holds for any
decoder, any delta and any division of it into chunks. -/
theorem longer_dictionary_same_target (d : Decoder) (dict more T : Bytes) (cs : List Bytes) (h : d.decode dict cs = some T) :
    d.decode (dict ++ more) cs = some T := by
  unfold Decoder.decode at h ⊢
  by_cases hs : d.top.started = true
  · simp only [Decoder.start, if_pos hs] at h ⊢
    exact h
  · have e : d.start (dict ++ more) = { d.start dict with top := (d.start dict).top.grow more } := by
      simp only [Decoder.start, if_neg hs, Level.start]
      rfl
    rw [e]
    cases h1 : (d.start dict).feed cs with
    | none => rw [h1] at h; cases h
    | some r =>
      obtain ⟨out, d'⟩ := r
      rw [feed_grow h1]
      rw [h1] at h
      exact h

/-- C64: in the standard format, which has no checksums, a delta that is accepted with one dictionary is accepted with
every dictionary that is at least as long, and gives a target of the same length: a wrong dictionary is never noticed. -/
theorem standard_other_dictionary_accepted (s : Settings) (dict dict' T : Bytes) (cs : List Bytes) (hx : ¬ Extended cs.flatten)
    (hp : ¬ CustomTable cs.flatten) (h : (configured s).decode dict cs = some T) (hd : dict.length ≤ dict'.length) :
    ∃ T', (configured s).decode dict' cs = some T' ∧ T'.length = T.length := by
  have hf := (standard_accepts_exactly_library s dict T cs hx hp).1 h
  suffices hg : ∃ T', FileCode library s dict' cs.flatten T' ∧ T'.length = T.length by
    obtain ⟨T', k1, k2⟩ := hg
    exact ⟨T', (standard_accepts_exactly_library s dict' T' cs hx hp).2 k1, k2⟩
  generalize cs.flatten = delta at hf hx hp
  cases hf with
  | empty h0 => exact ⟨[], .empty h0, rfl⟩
  | @mk hdr ws _ ext c _ hH hw =>
    cases hH with
    | @plain v hi _ hv hhi =>
      have : (v == 0x53) = false := by
        rcases hv with rfl | rfl
        · rfl
        · exact absurd rfl hx
      have hw' : Windows { defaultCoding with table := defaultTable } false library s dict [] ws T := by rw [← this]; exact hw
      obtain ⟨T', k1, k2⟩ := hw'.other hd (prev' := []) rfl
      refine ⟨T', .mk (.plain hv hhi) ?_, k2⟩
      rw [this]
      exact k1
    | rfc h0 => exact absurd h0 (by decide)
    | @library v hi nb sb hdr' ws' w T1 T2 near same ext' c' t left h0 hv hhi =>
      exfalso
      refine hp ⟨hi, rfl, fun h2 => ?_⟩
      have key : ∀ b : UInt8, b &&& 3 = 2 → b &&& 2 = 0 → False := forall_byte (by decide +kernel)
      exact key hi hhi h2

/-- C64: deltas made by this library, read with another dictionary, in any division into chunks.
* A dictionary that is too short is noticed.
* Without checksums, any other dictionary is accepted, and gives a target of the right length.
* Whatever is accepted has for every chunk of the target the right number of bytes, and with checksums the right
  Adler-32. -/
theorem other_dictionary (dict dict' : Bytes) (hdict : dict.length < 2 ^ 31) (flags : Nat) (hb : flags &&& 4 = 0)
    (matching : Bool) (chunks : List Bytes)
    (hs : ∀ data ∈ chunks, dict.length + data.length < 2 ^ 31 ∧ data.length + 64 < 2 ^ 31)
    (s : Settings) (hwin : ∀ data ∈ chunks, data.length ≤ s.maxWindow) (hfile : chunks.flatten.length ≤ s.maxFile) :
    ∃ delta, encode dict flags matching chunks = .ok (some delta) ∧ ∀ cs : List Bytes, cs.flatten = delta →
      (dict'.length < dict.length → chunks.flatten ≠ [] → (configured s).decode dict' cs = none) ∧
      (dict.length ≤ dict'.length → flags &&& 2 = 0 →
        ∃ T, (configured s).decode dict' cs = some T ∧ T.length = chunks.flatten.length) ∧
      ∀ T, (configured s).decode dict' cs = some T →
        ∃ parts : List Bytes, parts.flatten = T ∧ parts.map List.length = chunks.map List.length ∧
          (flags &&& 2 ≠ 0 → parts.map adlerOf = chunks.map adlerOf) := by
  obtain ⟨engine, window, h1, h2, h3, h4⟩ := Encoder.protocol_full dict hdict flags hb matching
  obtain ⟨e', k⟩ := h2 ([.start] ++ chunks.map .chunk ++ [.finish]) (by
    intro data hm
    simp at hm
    exact hs data hm)
  have hwindows : ∀ {cs : List Bytes} {T : Bytes}, cs.flatten = Writer.header flags ++ chunks.flatMap window →
      (configured s).decode dict' cs = some T → Windows defaultCoding (flags != 0) library s dict' [] (chunks.flatMap window) T := by
    intro cs T hcs hd
    have hf := accepted_follows_grammar_partial s dict' T cs hd
    rw [hcs] at hf
    by_cases h0 : flags = 0
    · rw [h0]
      simp only [Writer.header, if_pos h0] at hf
      exact hf.windows (by decide)
    · have e : (flags != 0) = true := by simpa using h0
      rw [e]
      simp only [Writer.header, if_neg h0] at hf
      exact hf.windows (by decide)
  refine ⟨Writer.header flags ++ chunks.flatMap window, ?_, fun cs hcs => ⟨?_, ?_, ?_⟩⟩
  · simp only [encode, h1, k, protocol_encode]
    rw [if_pos (by simp)]
    simp [List.flatMap_map]
  · intro hlt hne
    cases hd : (configured s).decode dict' cs with
    | none => rfl
    | some T =>
      exfalso
      have hw := hwindows hcs hd
      obtain ⟨front, data, rest, e1, e2, e3⟩ : ∃ front data rest, chunks = front ++ data :: rest ∧ data ≠ [] ∧ front.flatMap window = [] := by
        clear hwin hfile hs k hwindows hcs hw
        induction chunks with
        | nil => exact absurd rfl hne
        | cons c chunks ih =>
          by_cases hc : c = []
          · subst hc
            obtain ⟨front, data, rest, k1, k2, k3⟩ := ih (by simpa using hne)
            exact ⟨[] :: front, data, rest, by rw [k1]; rfl, k2, by simp [h3, k3]⟩
          · exact ⟨[], c, chunks, rfl, hc, rfl⟩
      have hm : data ∈ chunks := by rw [e1]; simp
      obtain ⟨_, w1, w2, _, w3⟩ := h4 data e2 (hs data hm).1 (hs data hm).2
      rw [e1, List.flatMap_append, e3, List.nil_append, List.flatMap_cons] at hw
      have hwne : window data ≠ [] := by
        obtain ⟨ind, lb, pb, r, e, _⟩ := w3
        rw [e]; simp
      obtain ⟨w, r, T1, T2, e, _, j1, _⟩ := hw.first (by simp [hwne])
      have hfull := (w2 { maxWindow := data.length, maxFile := data.length, allowTarget := true } [] (Nat.le_refl _) (by simp)).mono
        strict_le_library
      obtain ⟨rfl, _⟩ := hfull.unique rfl j1 e
      have := SourceIs.fits w3 j1
      omega
  · intro hle h0
    obtain ⟨T, t1, t2⟩ := windows_reread (ext := flags != 0) (s := s) (il := flags &&& 1 != 0) hle h3 (chunks := chunks) (fun data hm hne => by
      obtain ⟨_, w1, w2, _⟩ := h4 data hne (hs data hm).1 (hs data hm).2
      have e : (flags &&& 2 != 0) = false := by simp [h0]
      rw [e] at w1
      exact ⟨w1, fun prev hp => w2 s prev (hwin data hm) hp⟩) (prev := []) (by simpa using hfile)
    exact ⟨T, conforming_accepted_partial s dict' _ _ (Writer.fileCode_of_windows t1) cs hcs, t2⟩
  · intro T hd
    have hck : (flags &&& 2 != 0) = true → (flags != 0) = true := by
      simp only [bne_iff_ne, ne_eq]
      rintro h rfl
      exact h (by decide)
    obtain ⟨parts, p1, p2, p3⟩ := windows_read (checksum := flags &&& 2 != 0) (il := flags &&& 1 != 0) hck h3
      (s0 := { maxWindow := 2 ^ 31, maxFile := 2 ^ 31, allowTarget := true }) (dict := dict) (fun data hm hne => by
        obtain ⟨_, w1, w2, _⟩ := h4 data hne (hs data hm).1 (hs data hm).2
        have := (hs data hm).2
        exact ⟨w1, w2 _ [] (by simp only; omega) (by simp only [List.length_nil]; omega)⟩) (hwindows hcs hd)
    exact ⟨parts, p1, p2, fun h => p3 (by simpa using h)⟩

/-- C64: with checksums, a wrong dictionary is noticed unless it makes at least two bytes of the target wrong, or
at least three if no chunk is longer than 65521 bytes. -/
theorem wrong_dictionary_noticed (dict dict' : Bytes) (hdict : dict.length < 2 ^ 31) (flags : Nat) (hb : flags &&& 4 = 0)
    (hc : flags &&& 2 ≠ 0) (matching : Bool) (chunks : List Bytes)
    (hs : ∀ data ∈ chunks, dict.length + data.length < 2 ^ 31 ∧ data.length + 64 < 2 ^ 31)
    (s : Settings) (hwin : ∀ data ∈ chunks, data.length ≤ s.maxWindow) (hfile : chunks.flatten.length ≤ s.maxFile) :
    ∃ delta, encode dict flags matching chunks = .ok (some delta) ∧ ∀ cs : List Bytes, cs.flatten = delta →
      ∀ T, (configured s).decode dict' cs = some T → T = chunks.flatten ∨
        (T.length = chunks.flatten.length ∧ 2 ≤ wrongBytes T chunks.flatten ∧
          ((∀ data ∈ chunks, data.length ≤ 65521) → 3 ≤ wrongBytes T chunks.flatten)) := by
  obtain ⟨delta, h1, h2⟩ := other_dictionary dict dict' hdict flags hb matching chunks hs s hwin hfile
  refine ⟨delta, h1, fun cs hcs T hT => ?_⟩
  obtain ⟨parts, rfl, p2, p3⟩ := (h2 cs hcs).2.2 T hT
  rcases Classical.em (parts.flatten = chunks.flatten) with h | h
  · exact Or.inl h
  · right
    obtain ⟨k1, k2⟩ := adler_wrongBytes_parts p2 (p3 hc) (fun c hm => by have := (hs c hm).2; omega) h
    refine ⟨?_, k1, k2⟩
    rw [List.length_flatten, List.length_flatten, p2]

/-- A dictionary of 32 bytes. -/
def counting : Bytes := (List.range 32).map UInt8.ofNat

/-- What is made of it as a target, with and without a checksum. -/
def countingDelta : Bytes := [0xD6, 0xC3, 0xC4, 0x53, 0, 5, 32, 0, 13, 32, 0, 0, 2, 1, 129, 170, 192, 131, 112, 115, 32, 0]
/-- See `countingDelta`. -/
def countingPlain : Bytes := [0xD6, 0xC3, 0xC4, 0, 0, 1, 32, 0, 8, 32, 0, 0, 2, 1, 115, 32, 0]

/-- C64: three wrong bytes are enough to get past the checksum; without checksums, one is. Here the target is the dictionary
itself. -/
theorem wrong_dictionary_unnoticed :
    ((encode counting 2 false [counting]).toOption = some (some countingDelta) ∧
      ∃ dict' T, dict'.length = counting.length ∧ vcdiffDecode dict' countingDelta = some T ∧ wrongBytes T counting = 3) ∧
    ((encode counting 0 false [counting]).toOption = some (some countingPlain) ∧
      ∃ dict' T, dict'.length = counting.length ∧ vcdiffDecode dict' countingPlain = some T ∧ wrongBytes T counting = 1) := by
  refine ⟨⟨by decide +kernel, [0, 1, 2] ++ [4, 2, 6] ++ counting.drop 6, [0, 1, 2] ++ [4, 2, 6] ++ counting.drop 6, ?_, ?_, ?_⟩,
    ⟨by decide +kernel, [7] ++ counting.drop 1, [7] ++ counting.drop 1, ?_, ?_, ?_⟩⟩ <;> decide +kernel

/-- The hypotheses of the theorems are met: with checksums, another dictionary of the same length is refused, and a longer
one that begins with the right one is not; a shorter one is refused. -/
example : vcdiffDecode counting countingDelta = some counting ∧ vcdiffDecode (counting ++ [1, 2, 3]) countingDelta = some counting ∧
    vcdiffDecode ([7] ++ counting.drop 1) countingDelta = none ∧ vcdiffDecode (counting.take 31) countingDelta = none ∧
    vcdiffDecode (counting.take 31) countingPlain = none ∧
    (∀ data ∈ [counting], counting.length + data.length < 2 ^ 31 ∧ data.length + 64 < 2 ^ 31) ∧
    (∀ data ∈ [counting], data.length ≤ ({} : Settings).maxWindow) ∧ [counting].flatten.length ≤ ({} : Settings).maxFile ∧
    (2 : Nat) &&& 4 = 0 ∧ (2 : Nat) &&& 2 ≠ 0 ∧ (∀ data ∈ [counting], data.length ≤ 65521) := by
  decide +kernel

/-- Those of `standard_other_dictionary_accepted`. -/
example : ¬ Extended countingPlain ∧ ¬ CustomTable countingPlain ∧ vcdiffDecode counting countingPlain = some counting := by
  refine ⟨by simp only [Extended]; decide, ?_, by decide +kernel⟩
  rintro ⟨b, hb, h⟩
  simp only [countingPlain, List.getElem?_cons_succ, List.getElem?_cons_zero, Option.some.injEq] at hb
  subst hb
  exact h (by decide)

end Vcd.Props
