import Verif.Proof.Undefined
import Verif.Props.Common
import Verif.Props.Rfc

/-!
# C92: bits without a meaning are ignored

RFC 3284 leaves five bits of `Win_Indicator` (with the checksum extension), five bits of `Delta_Indicator` and six bits of
`Hdr_Indicator` undefined. The library behaves the same whatever they are.
-/

namespace Vcd.Props
open Spec

/-- C92. Let `ps` be any delta that is not empty and that the decoder accepts. If anything follows, it begins with a window indicator.
Let the indicator be `x` or `y`, and `x` and `y` differ in undefined bits only. Then the caller sees the same, whatever is passed after
the indicator (`c`) and whatever is called afterwards. -/
theorem window_indicator_bits_ignored (s : Settings) (dict T : Bytes) (ps : List Bytes) (hne : ps.flatten ≠ [])
    (hp : (configured s).decode dict ps = some T) (x y : UInt8) (hxy : x &&& 7 = y &&& 7) (c : Bytes) (calls : List DecoderCall) :
    callerSees (configured s) (.start dict :: ps.map .chunk ++ .chunk (x :: c) :: calls) =
      callerSees (configured s) (.start dict :: ps.map .chunk ++ .chunk (y :: c) :: calls) := by
  obtain ⟨rs, e, h1, h2, h3, _⟩ := complete_between rfl hne hp
  unfold callerSees
  rw [calls_after h1, calls_after h1]
  have t : Twin e.top.version (e.top.unparsed ++ x :: c) (e.top.unparsed ++ y :: c) := by
    rw [h3]
    exact (Twin.indicator _ hxy).append c
  rw [t.calls h2]

/-- C92. In a file without extensions the bit that announces a checksum is one of those that are ignored. -/
theorem checksum_bit_ignored (s : Settings) (dict T : Bytes) (ps : List Bytes) (hne : ps.flatten ≠ []) (hx : ¬ Extended ps.flatten)
    (hp : (configured s).decode dict ps = some T) (x y : UInt8) (hxy : x &&& 3 = y &&& 3) (c : Bytes) (calls : List DecoderCall) :
    callerSees (configured s) (.start dict :: ps.map .chunk ++ .chunk (x :: c) :: calls) =
      callerSees (configured s) (.start dict :: ps.map .chunk ++ .chunk (y :: c) :: calls) := by
  obtain ⟨rs, e, h1, h2, h3, h4, _⟩ := complete_between rfl hne hp
  unfold callerSees
  rw [calls_after h1, calls_after h1]
  have t : Twin e.top.version (e.top.unparsed ++ x :: c) (e.top.unparsed ++ y :: c) := by
    rw [h3]
    refine (Twin.standard ?_ hxy).append c
    rw [h4]
    intro h
    refine hx ?_
    rw [List.getD_eq_getElem?_getD] at h
    cases hg : ps.flatten[3]? with
    | none => rw [hg] at h; exact absurd h (by decide)
    | some b => rw [hg] at h; exact hg.trans (congrArg some h)
  rw [t.calls h2]

/-- C92. The same for the delta indicator of the window that follows, wherever the bytes of the window before it (`qs`) are cut. -/
theorem delta_indicator_bits_ignored (s : Settings) (dict T : Bytes) (ps : List Bytes) (hne : ps.flatten ≠ [])
    (hp : (configured s).decode dict ps = some T) (qs : List Bytes) (hq : BeforeDeltaIndicator qs.flatten) (x y : UInt8)
    (hxy : x &&& 7 = y &&& 7) (c : Bytes) (calls : List DecoderCall) :
    callerSees (configured s) (.start dict :: ps.map .chunk ++ (qs.map .chunk ++ .chunk (x :: c) :: calls)) =
      callerSees (configured s) (.start dict :: ps.map .chunk ++ (qs.map .chunk ++ .chunk (y :: c) :: calls)) := by
  obtain ⟨rs, e, h1, h2, h3, _, _, h4, _⟩ := complete_between rfl hne hp
  unfold callerSees
  rw [calls_after h1, calls_after h1]
  obtain ⟨rs', e', k1, _, k2⟩ := before_feed hq h2 h4 (qs := qs) (by rw [h3]; rfl)
  rw [calls_after k1, calls_after k1]
  rcases k2 with ⟨k2, k3⟩ | k2
  · have t : Twin e'.top.version (e'.top.unparsed ++ x :: c) (e'.top.unparsed ++ y :: c) := by
      have := (Twin.delta e'.top.version hq hxy).append c
      rw [k3]
      simpa using this
    rw [t.calls k2]
  · simp only [Decoder.calls, chunk_stopped k2]

/-- C92. The same for the header indicator; `qs` are the four bytes before it, right or wrong. -/
theorem header_indicator_bits_ignored (s : Settings) (dict : Bytes) (qs : List Bytes) (hq : qs.flatten.length = 4) (x y : UInt8)
    (hxy : x &&& 3 = y &&& 3) (c : Bytes) (calls : List DecoderCall) :
    callerSees (configured s) (.start dict :: qs.map .chunk ++ .chunk (x :: c) :: calls) =
      callerSees (configured s) (.start dict :: qs.map .chunk ++ .chunk (y :: c) :: calls) := by
  have e0 := start_fresh (d := configured s) rfl dict
  obtain ⟨rs', e', k1, k2⟩ := fileHeader_feed hq (qs := qs) (d := (configured s).start dict) (u := []) ⟨by rw [e0], by rw [e0]; rfl, by rw [e0], by rw [e0]; rfl⟩ rfl
  have h1 : (configured s).calls (.start dict :: qs.map .chunk) = .ok (⟨true, []⟩ :: rs', e') := by
    simp only [Decoder.calls, Decoder.call, k1]
  unfold callerSees
  rw [calls_after h1, calls_after h1]
  rcases k2 with k2 | k2
  · have t := (FileTwin.indicator hq hxy).append c
    rw [FileTwin.calls k2 (s := x :: c) (s' := y :: c) (by simpa using t)]
  · simp only [Decoder.calls, chunk_stopped k2]

/-- C92. So in a file without extensions and without a code table of its own, altering undefined bits of the indicator of a window changes
nothing about the result, and both files may be cut into chunks anywhere. `p` is what precedes the window, `r` what follows the indicator. -/
theorem standard_window_bits_ignored (s : Settings) (dict T p : Bytes) (hne : p ≠ []) (he : ¬ Extended p) (ht : ¬ CustomTable p)
    (hp : (configured s).decode dict [p] = some T) (x y : UInt8) (hxy : x &&& 3 = y &&& 3) (r : Bytes) (cs cs' : List Bytes)
    (hcs : cs.flatten = p ++ x :: r) (hcs' : cs'.flatten = p ++ y :: r) :
    (configured s).decode dict cs = (configured s).decode dict cs' := by
  obtain ⟨_, _, _, _, _, _, h5, _⟩ := complete_between rfl (by simpa using hne) hp
  have h5 : 5 ≤ p.length := by simpa using h5
  have main : ∀ (a b : UInt8), a &&& 3 = b &&& 3 → ∀ (ca cb : List Bytes) (T' : Bytes), ca.flatten = p ++ a :: r → cb.flatten = p ++ b :: r →
      (configured s).decode dict ca = some T' → (configured s).decode dict cb = some T' := by
    intro a b hab ca cb T' ha hb hd
    have plain : ∀ q, ¬ Extended (p ++ q) ∧ ¬ CustomTable (p ++ q) := by
      intro q
      unfold Extended CustomTable
      rw [List.getElem?_append_left (by omega), List.getElem?_append_left (by omega)]
      exact ⟨he, ht⟩
    have ea : [p, a :: r].flatten = p ++ a :: r := by simp
    have eb : [p, b :: r].flatten = p ++ b :: r := by simp
    have k1 := (standard_accepts_exactly_library s dict T' ca (by rw [ha]; exact (plain _).1) (by rw [ha]; exact (plain _).2)).1 hd
    rw [ha, ← ea] at k1
    have k2 := (standard_accepts_exactly_library s dict T' [p, a :: r] (by rw [ea]; exact (plain _).1) (by rw [ea]; exact (plain _).2)).2 k1
    have k3 := checksum_bit_ignored s dict T [p] (by simpa using hne) (by simpa using he) hp a b hab r [.finish]
    have k4 := decode_congr (cs := [p, a :: r]) (cs' := [p, b :: r]) k3 k2
    have k5 := (standard_accepts_exactly_library s dict T' [p, b :: r] (by rw [eb]; exact (plain _).1) (by rw [eb]; exact (plain _).2)).1 k4
    rw [eb, ← hb] at k5
    exact (standard_accepts_exactly_library s dict T' cb (by rw [hb]; exact (plain _).1) (by rw [hb]; exact (plain _).2)).2 k5
  cases h1 : (configured s).decode dict cs with
  | some T' => exact (main x y hxy cs cs' T' hcs hcs' h1).symm
  | none =>
    cases h2 : (configured s).decode dict cs' with
    | none => rfl
    | some T' => rw [main y x hxy.symm cs' cs T' hcs' hcs h2] at h1; simp at h1

/-- C92. The same for the delta indicator; `w` is what precedes it in its window. -/
theorem standard_delta_bits_ignored (s : Settings) (dict T p : Bytes) (hne : p ≠ []) (he : ¬ Extended p) (ht : ¬ CustomTable p)
    (hp : (configured s).decode dict [p] = some T) (w : Bytes) (hw : BeforeDeltaIndicator w) (x y : UInt8) (hxy : x &&& 7 = y &&& 7)
    (r : Bytes) (cs cs' : List Bytes) (hcs : cs.flatten = p ++ w ++ x :: r) (hcs' : cs'.flatten = p ++ w ++ y :: r) :
    (configured s).decode dict cs = (configured s).decode dict cs' := by
  obtain ⟨_, _, _, _, _, _, h5, _⟩ := complete_between rfl (by simpa using hne) hp
  have h5 : 5 ≤ p.length := by simpa using h5
  have main : ∀ (a b : UInt8), a &&& 7 = b &&& 7 → ∀ (ca cb : List Bytes) (T' : Bytes), ca.flatten = p ++ w ++ a :: r →
      cb.flatten = p ++ w ++ b :: r → (configured s).decode dict ca = some T' → (configured s).decode dict cb = some T' := by
    intro a b hab ca cb T' ha hb hd
    have plain : ∀ q, ¬ Extended (p ++ w ++ q) ∧ ¬ CustomTable (p ++ w ++ q) := by
      intro q
      unfold Extended CustomTable
      rw [List.append_assoc, List.getElem?_append_left (by omega), List.getElem?_append_left (by omega)]
      exact ⟨he, ht⟩
    have ea : [p, w, a :: r].flatten = p ++ w ++ a :: r := by simp
    have eb : [p, w, b :: r].flatten = p ++ w ++ b :: r := by simp
    have k1 := (standard_accepts_exactly_library s dict T' ca (by rw [ha]; exact (plain _).1) (by rw [ha]; exact (plain _).2)).1 hd
    rw [ha, ← ea] at k1
    have k2 := (standard_accepts_exactly_library s dict T' [p, w, a :: r] (by rw [ea]; exact (plain _).1) (by rw [ea]; exact (plain _).2)).2 k1
    have k3 := delta_indicator_bits_ignored s dict T [p] (by simpa using hne) hp [w] (by simpa using hw) a b hab r [.finish]
    have k4 := decode_congr (cs := [p, w, a :: r]) (cs' := [p, w, b :: r]) k3 k2
    have k5 := (standard_accepts_exactly_library s dict T' [p, w, b :: r] (by rw [eb]; exact (plain _).1) (by rw [eb]; exact (plain _).2)).1 k4
    rw [eb, ← hb] at k5
    exact (standard_accepts_exactly_library s dict T' cb (by rw [hb]; exact (plain _).1) (by rw [hb]; exact (plain _).2)).2 k5
  cases h1 : (configured s).decode dict cs with
  | some T' => exact (main x y hxy cs cs' T' hcs hcs' h1).symm
  | none =>
    cases h2 : (configured s).decode dict cs' with
    | none => rfl
    | some T' => rw [main y x hxy.symm cs' cs T' hcs' hcs h2] at h1; simp at h1

/-- A case: after the header, the window of `mixedDelta` with its indicators altered, cut within the window header. -/
example : (configured {}).decode [] [[0xD6, 0xC3, 0xC4, 0x53, 0x00]] = some [] ∧ (0x04 : UInt8) &&& 7 = 0xFC &&& 7 ∧
    (configured {}).decode [] [[0xD6, 0xC3, 0xC4, 0x53, 0x00], 0xFC :: mixedDelta.drop 6] = some [0x61, 0x62, 0x63, 0x61, 0x62, 0x63] := by
  decide +kernel

/-- A window of a file without extensions that announces a checksum, and has none. -/
example : (configured {}).decode [] [[0xD6, 0xC3, 0xC4, 0x00, 0x00]] = some [] ∧ ¬ Extended [0xD6, 0xC3, 0xC4, 0x00, 0x00] ∧
    ¬ CustomTable [0xD6, 0xC3, 0xC4, 0x00, 0x00] ∧
    (configured {}).decode [] [[0xD6, 0xC3, 0xC4, 0x00, 0x00, 0x04, 0x07, 0x01, 0x00, 0x01, 0x01, 0x00, 0x61, 0x02]] = some [0x61] := by
  refine ⟨by decide +kernel, by simp [Extended], by simp [CustomTable], by decide +kernel⟩

/-- A header indicator with undefined bits, and one that announces a code table too: the header is accepted and the decoder waits for the table. -/
example : [[0xD6, 0xC3], [0xC4, 0x53]].flatten.length = 4 ∧ (0x00 : UInt8) &&& 3 = 0xFC &&& 3 ∧
    (configured {}).decode [] [[0xD6, 0xC3], [0xC4, 0x53], 0xFC :: mixedDelta.drop 5] = some [0x61, 0x62, 0x63, 0x61, 0x62, 0x63] ∧
    (0x02 : UInt8) &&& 3 = 0xFE &&& 3 ∧
    ((configured {}).start []).feed [[0xD6, 0xC3], [0xC4, 0x53], [0xFE, 0x04, 0x03, 0xD6]] ≠ none ∧
    (configured {}).decode [] [[0xD6, 0xC3], [0xC4, 0x53], [0xFE, 0x04, 0x03, 0xD6]] = none := by
  refine ⟨by decide, by decide, by decide +kernel, by decide, ?_, by decide +kernel⟩
  rw [← Option.isSome_iff_ne_none]
  decide +kernel

example : BeforeDeltaIndicator [0x01, 0x81, 0x00, 0x00, 0x0C, 0x06] :=
  ⟨0x01, [0x81, 0x00, 0x00], [0x0C], [0x06], rfl, by
    rw [if_neg (by decide)]
    exact ⟨[0x81, 0x00], [0x00], rfl, ⟨[0x81], 0x00, rfl, by simp [continues], by simp [continues]⟩, ⟨[], 0x00, rfl, by simp, by simp [continues]⟩⟩,
    ⟨[], 0x0C, rfl, by simp, by simp [continues]⟩, ⟨[], 0x06, rfl, by simp, by simp [continues]⟩⟩

end Vcd.Props
