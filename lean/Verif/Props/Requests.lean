import Verif.Proof.Requests
import Verif.Props.Reuse

/-!
# C73: the memory that a decoder asks for keeps to the limits

The size of a target window is read from the delta, and room for all of it is asked for before any of it has been
decoded, twice: in the buffer that holds the target (`Decoder.requests`) and in the output string (the
`reserve`s in `Decoder.events`). `d` is any decoder that is not decoding, new or used before, and `d.settings` are
the limits it has been given.
-/

namespace Vcd.Props
open Vcd Vcd.Spec

/-- C73, the decoder's own buffers: whatever is fed, in whatever chunks and whether or not it is accepted, a
decoder never asks for room for more target data than the limit on the size of the target file allows; if
copying from earlier target data is disallowed then not for more than one window may have; and the decoders
that read custom code tables never ask for more than the size of a code table. -/
theorem buffers_within_limits (d : Decoder) (hd : d.top.started = false) (dict : Bytes) (cs : List Bytes) :
    ∀ r ∈ (d.start dict).requests cs,
      (r.depth = 0 → r.bytes ≤ d.settings.maxFile ∧ (d.settings.allowTarget = false → r.bytes ≤ d.settings.maxWindow)) ∧
      (r.depth ≠ 0 → r.bytes ≤ 1536) := by
  have h0 : DecInv d := by intro hx; rw [hd] at hx; simp at hx
  have h1 : DecInv (d.start dict) := h0.call (c := .start dict) rfl
  have e := start_fresh hd dict
  have hW : 4294967296 ≤ d.top.maxFile + 4294967296 := by omega
  have hk := requests_keep hW h1 (fun _ => ⟨?_, Kept.start d _ hd dict⟩) cs
  · intro r hr
    obtain ⟨k1, k2⟩ := hk r hr
    refine ⟨fun h2 => ?_, k2⟩
    obtain ⟨a1, _, a3⟩ := k1 h2
    rw [e] at a1 a3
    exact ⟨a1, a3⟩
  · rw [e]
    refine .one ⟨?_, fun p hp => by simp [Level.reset] at hp, Nat.zero_le _, Nat.le_refl _⟩
    change d.top.maxFile < _
    omega

/-- C73, output strings: when the decoder asks the output string for room, what it has output so far and the room
it asks for do not exceed the limit on the size of the target file. -/
theorem output_reserved_within_limits (d : Decoder) (hd : d.top.started = false) (dict : Bytes) (cs : List Bytes)
    (pre post : List OutEvent) (n : Nat)
    (h : (d.start dict).events (cs.map .chunk) = pre ++ .op (.reserve n) :: post) :
    (appendedBy (opsOf pre)).length + n ≤ d.settings.maxFile := by
  have h0 : DecInv d := by intro hx; rw [hd] at hx; simp at hx
  have h1 : DecInv (d.start dict) := h0.call (c := .start dict) rfl
  have e := start_fresh hd dict
  have hk := events_outputs h1 (n := 0) (fun _ => by rw [e]; exact ⟨rfl, Nat.zero_le _⟩) cs
  rw [h] at hk
  have := hk.bound
  rw [e] at this
  rw [Nat.zero_add] at this
  exact this

/-! ## The limits are reached -/

/-- The header of a window of 2^26 bytes, interleaved, in 19 bytes, and a first instruction of it. -/
def greedy : List Bytes :=
  [[0xD6, 0xC3, 0xC4, 0x53, 0, 0, 11, 0xA0, 0x80, 0x80, 0], [0, 0, 3, 0, 2, 0x61]]

/-- A few bytes are enough to make a decoder with default limits ask for all that they allow, in its own buffer and,
once a byte has been decoded, in the output string. -/
example :
    (((leftWith {} defaultTable).start []).requests greedy).map (·.bytes) = [67108864] ∧
    opsOf (((leftWith {} defaultTable).start []).events (greedy.map .chunk)) =
      [.reserve 67108864, .append [0x61]] := by
  decide +kernel

/-- With a limit one smaller nothing is asked for. -/
example :
    ((leftWith { maxFile := 67108863 } defaultTable).start []).requests greedy = [] ∧
    ((leftWith { maxWindow := 67108863 } defaultTable).start []).requests greedy = [] := by
  decide +kernel

/-- Two windows of three bytes: room for six is asked for if the first one is kept, and otherwise for three. -/
example :
    let cs : List Bytes := [[0xD6, 0xC3, 0xC4, 0, 0, 0, 9, 3, 0, 3, 1, 0, 0x61, 0x62, 0x63, 4, 0, 9, 3, 0, 3, 1, 0, 0x64, 0x65, 0x66, 4]]
    (((leftWith {} defaultTable).start []).requests cs).map (·.bytes) = [3, 6] ∧
    (((leftWith { allowTarget := false } defaultTable).start []).requests cs).map (·.bytes) = [3, 3] := by
  decide +kernel

/-- A custom code table, which the first window of the nested delta describes as a copy of the default one. -/
example :
    let cs : List Bytes := [[0xD6, 0xC3, 0xC4, 0, 2, 4, 3, 0xD6, 0xC3, 0xC4, 0, 0, 1, 0x8C, 0x00, 0, 10, 0x8C, 0x00, 0, 0, 3, 1,
      19, 0x8C, 0x00, 0, 0, 9, 3, 0, 3, 1, 0, 0x61, 0x62, 0x63, 4]]
    ((leftWith {} defaultTable).start []).requests cs = [⟨1, 1536⟩, ⟨0, 3⟩] := by
  decide +kernel

end Vcd.Props
