import Verif.Proof.Unsupported
import Verif.Props.Undefined

/-!
# C93: a window the decoder cannot decode is refused as soon as its header says so

`ps` is any delta that the decoder accepts and that is not empty; if anything follows, it is a window. `qs` is what follows, cut anywhere, up to
and including the offending byte, and perhaps more. `before` are the replies to the calls with `ps`, `during` those to the calls with `qs`
but for the last. C14 is about the header of the file, C15 about `VCD_TARGET`.
-/

namespace Vcd.Props
open Spec

/-- C93. A window that wants its source segment both from the dictionary (`VCD_SOURCE`) and from the target (`VCD_TARGET`). -/
theorem both_segments_refused (s : Settings) (dict T : Bytes) (ps : List Bytes) (hne : ps.flatten ≠ [])
    (hp : (configured s).decode dict ps = some T) (x : UInt8) (hx : x &&& 3 = 3) (c : Bytes) (qs : List Bytes) (hq : qs.flatten = x :: c) :
    ∃ before during, callerSees (configured s) (.start dict :: ps.map .chunk) = .ok before ∧
      callerSees (configured s) (.start dict :: ps.map .chunk ++ qs.map .chunk) = .ok (before ++ (during ++ [⟨false, []⟩])) ∧
      ∀ r ∈ during, r.out = [] :=
  refused_after rfl hne hp (by rintro rfl; simp at hq) fun L _ _ _ _ _ => by rw [hq]; exact both_error hx L c

/-- C93. A window with a source segment that is not within the dictionary. -/
theorem foreign_segment_refused (s : Settings) (dict T : Bytes) (ps : List Bytes) (hne : ps.flatten ≠ [])
    (hp : (configured s).decode dict ps = some T) (x : UInt8) (hx : x &&& 3 = 1) (length position : Bytes) (hl : IsVarint length)
    (ho : IsVarint position) (hlong : varintValue position + varintValue length > dict.length) (c : Bytes) (qs : List Bytes)
    (hq : qs.flatten = x :: (length ++ position) ++ c) :
    ∃ before during, callerSees (configured s) (.start dict :: ps.map .chunk) = .ok before ∧
      callerSees (configured s) (.start dict :: ps.map .chunk ++ qs.map .chunk) = .ok (before ++ (during ++ [⟨false, []⟩])) ∧
      ∀ r ∈ during, r.out = [] :=
  refused_after rfl hne hp (by rintro rfl; simp at hq) fun L h _ _ _ _ => by rw [hq]; exact source_error hx hl ho L (by rw [h]; exact hlong) c

/-- C93. A window with a target longer than `SetMaximumTargetWindowSize` allows. -/
theorem large_window_refused (s : Settings) (dict T : Bytes) (ps : List Bytes) (hne : ps.flatten ≠ [])
    (hp : (configured s).decode dict ps = some T) (ind : UInt8) (segment deltaLength targetLength : Bytes)
    (hs : if ind &&& 3 = 0 then segment = [] else ∃ length position, segment = length ++ position ∧ IsVarint length ∧ IsVarint position)
    (hd : IsVarint deltaLength) (ht : IsVarint targetLength) (hlong : varintValue targetLength > s.maxWindow) (c : Bytes) (qs : List Bytes)
    (hq : qs.flatten = ind :: (segment ++ deltaLength ++ targetLength) ++ c) :
    ∃ before during, callerSees (configured s) (.start dict :: ps.map .chunk) = .ok before ∧
      callerSees (configured s) (.start dict :: ps.map .chunk ++ qs.map .chunk) = .ok (before ++ (during ++ [⟨false, []⟩])) ∧
      ∀ r ∈ during, r.out = [] :=
  refused_after rfl hne hp (by rintro rfl; simp at hq) fun L _ h _ _ _ => by
    have : varintValue targetLength > L.maxWin := by rw [h]; exact hlong
    rw [hq]; exact large_error hs hd ht L (by simp [Level.wouldExceed, this]) c

/-- C93. A window with a target that, with what has been decoded, is longer than `SetMaximumTargetFileSize` allows. -/
theorem large_file_refused (s : Settings) (dict T : Bytes) (ps : List Bytes) (hne : ps.flatten ≠ [])
    (hp : (configured s).decode dict ps = some T) (ind : UInt8) (segment deltaLength targetLength : Bytes)
    (hs : if ind &&& 3 = 0 then segment = [] else ∃ length position, segment = length ++ position ∧ IsVarint length ∧ IsVarint position)
    (hd : IsVarint deltaLength) (ht : IsVarint targetLength) (hlong : T.length + varintValue targetLength > s.maxFile) (c : Bytes)
    (qs : List Bytes) (hq : qs.flatten = ind :: (segment ++ deltaLength ++ targetLength) ++ c) :
    ∃ before during, callerSees (configured s) (.start dict :: ps.map .chunk) = .ok before ∧
      callerSees (configured s) (.start dict :: ps.map .chunk ++ qs.map .chunk) = .ok (before ++ (during ++ [⟨false, []⟩])) ∧
      ∀ r ∈ during, r.out = [] :=
  refused_after rfl hne hp (by rintro rfl; simp at hq) fun L _ _ h1 h2 h3 => by
    have h3 : T.length ≤ s.maxFile := h3
    have h1 : L.maxFile = s.maxFile := h1
    have : varintValue targetLength > szSub L.maxFile L.total := by rw [h1, h2, szSub, if_pos h3]; omega
    rw [hq]; exact large_error hs hd ht L (by simp [Level.wouldExceed, this]) c

/-- C93. A window with a section (data, instructions or addresses) that is compressed further. -/
theorem compressed_sections_refused (s : Settings) (dict T : Bytes) (ps : List Bytes) (hne : ps.flatten ≠ [])
    (hp : (configured s).decode dict ps = some T) (w : Bytes) (hw : BeforeDeltaIndicator w) (x : UInt8) (hx : x &&& 7 ≠ 0)
    (c : Bytes) (qs : List Bytes) (hq : qs.flatten = w ++ x :: c) :
    ∃ before during, callerSees (configured s) (.start dict :: ps.map .chunk) = .ok before ∧
      callerSees (configured s) (.start dict :: ps.map .chunk ++ qs.map .chunk) = .ok (before ++ (during ++ [⟨false, []⟩])) ∧
      ∀ r ∈ during, r.out = [] :=
  refused_after rfl hne hp (by rintro rfl; simp at hq) fun L _ _ _ _ _ => by rw [hq]; exact compressed_error hw hx L c

/-- Cases: the indicators. -/
example : (configured {}).decode [] [[0xD6, 0xC3], [0xC4, 0x53, 0x00]] = some [] ∧ (0x07 : UInt8) &&& 3 = 3 ∧ (0x12 : UInt8) &&& 7 ≠ 0 := by
  decide +kernel

/-- A segment of 129 bytes at 2, for a dictionary of 130 bytes, in two chunks. -/
example : (0x05 : UInt8) &&& 3 = 1 ∧ IsVarint [0x81, 0x01] ∧ IsVarint [0x02] ∧
    varintValue [0x02] + varintValue [0x81, 0x01] > (List.replicate 130 (0 : UInt8)).length ∧
    [[0x05, 0x81], [0x01, 0x02]].flatten = 0x05 :: ([0x81, 0x01] ++ [0x02]) ++ [] :=
  ⟨by decide, ⟨[0x81], 0x01, rfl, by simp [continues], by simp [continues]⟩, ⟨[], 0x02, rfl, by simp, by simp [continues]⟩, by rw [List.length_replicate]; decide, rfl⟩

/-- A window of 3 bytes for a decoder that allows 8, after a delta for 6 bytes. -/
example : (configured { maxFile := 8 }).decode [] [mixedDelta] = some [0x61, 0x62, 0x63, 0x61, 0x62, 0x63] ∧
    [0x61, 0x62, 0x63, 0x61, 0x62, 0x63].length + varintValue [0x03] > ({ maxFile := 8 } : Settings).maxFile := by
  decide +kernel

/-- A window of 6 bytes for a decoder that allows 5, and the part of the window before the delta indicator. -/
example : varintValue [0x06] > ({ maxWindow := 5 } : Settings).maxWindow ∧ BeforeDeltaIndicator [0x04, 0x0C, 0x06] :=
  ⟨by decide, 0x04, [], [0x0C], [0x06], rfl, by rw [if_pos (by decide)], ⟨[], 0x0C, rfl, by simp, by simp [continues]⟩,
    ⟨[], 0x06, rfl, by simp, by simp [continues]⟩⟩

end Vcd.Props
