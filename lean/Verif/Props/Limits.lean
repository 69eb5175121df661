import Verif.Proof.Limits
import Verif.Props.Decoder

/-!
# C87: limits that are changed at any time
-/

namespace Vcd.Props
open Vcd Vcd.Spec

/-- C87: two histories of calls, made to decoders in the same state, that differ in nothing but where they set which limits: every call gets the same reply, up to
the first `DecodeChunk` that is refused in one of them before the window where it ends in the other. A limit never changes what is decoded, only
how far. -/
theorem limits_only_refuse (d : Decoder) (cs cs' : List DecoderCall)
    (hcs : cs.filter (fun c => !setsLimit c) = cs'.filter (fun c => !setsLimit c))
    (rs rs' : List DecoderReply) (e e' : Decoder) (h : d.calls cs = .ok (rs, e)) (h' : d.calls cs' = .ok (rs', e')) :
    AgreeUntilRefusal (answers cs rs) (answers cs' rs') :=
  agree (SameButLimits.refl d) hcs h h'

/-- Non-vacuity: with the window limit lowered to 2 after the first window, the second one is refused; and the output up to there is the same. -/
example : (({} : Decoder).calls [.setAllowTarget false, .start [], .chunk stdDelta, .setMaxWin 2, .chunk (stdDelta.drop 5)]).toOption.map
      (fun p => p.1.map fun r => (r.ret, r.out.length)) = some [(true, 0), (true, 0), (true, 3), (true, 0), (false, 0)] ∧
    (({} : Decoder).calls [.setMaxFile 7, .setAllowTarget false, .start [], .chunk stdDelta, .chunk (stdDelta.drop 5)]).toOption.map
      (fun p => p.1.map fun r => (r.ret, r.out.length)) = some [(true, 0), (true, 0), (true, 0), (true, 3), (true, 3)] := by
  constructor <;> decide +kernel

/-- C87: only the limits in force matter. After two histories that differ in nothing but the limits they set, and got the same replies, let both limits be
set: then whatever calls follow, they get the same replies, accepted or refused. -/
theorem only_current_limits_matter (d : Decoder) (cs cs' : List DecoderCall) (rs rs' : List DecoderReply) (e e' : Decoder)
    (h : d.calls cs = .ok (rs, e)) (h' : d.calls cs' = .ok (rs', e')) (ha : answers cs rs = answers cs' rs')
    (m w : Nat) (hw : w ≤ 2147483647) (more : List DecoderCall) :
    e.calls (.setMaxFile m :: .setMaxWin w :: more) = e'.calls (.setMaxFile m :: .setMaxWin w :: more) := by
  have hs := (agree_state (SameButLimits.refl d) h h' ha).set m w hw
  have hw' : ¬ w > targetSizeLimit := by
    have : targetSizeLimit = 2147483647 := rfl
    omega
  have hr : ∀ d : Decoder, (d.setMaxWin w).1 = true := by
    intro d
    unfold Decoder.setMaxWin
    rw [if_neg hw']
  simp only [Decoder.calls, Decoder.call, hs, hr]
  rfl

/-- Non-vacuity: a decoder that has begun with a window limit of 3 and one that has begun with 100 both accept the first window, and, with the limit at 2, refuse
the second one. -/
example : (({} : Decoder).calls [.setMaxWin 3, .start [], .chunk stdDelta, .setMaxFile 100, .setMaxWin 2, .chunk (stdDelta.drop 5)]).toOption.map
      (fun p => p.1.map fun r => (r.ret, r.out.length)) = some [(true, 0), (true, 0), (true, 3), (true, 0), (true, 0), (false, 0)] ∧
    (({} : Decoder).calls [.setMaxWin 100, .start [], .chunk stdDelta, .setMaxFile 100, .setMaxWin 2, .chunk (stdDelta.drop 5)]).toOption.map
      (fun p => p.1.map fun r => (r.ret, r.out.length)) = some [(true, 0), (true, 0), (true, 3), (true, 0), (true, 0), (false, 0)] := by
  constructor <;> decide +kernel

/-- C87: the last limit on the size of the target file that is set is respected, also if it is set in mid-decode, as long as no limit is set that is
below the one before and less than 2147483647 bytes above what has been output by then. (`lowered_limit_ignored`: without this, it may not be.) -/
theorem changed_file_limit_respected (h : List DecoderCall) (rs0 : List DecoderReply) (d : Decoder)
    (hh : ({} : Decoder).calls h = .ok (rs0, d)) (hd : d.top.started = false) (m : Nat) (dict : Bytes)
    (cs : List DecoderCall) (hcs : ∀ c ∈ cs, decodesOrSetsLimit c) (rs : List DecoderReply) (d' : Decoder)
    (hc : ((d.setMaxFile m).2.start dict).calls cs = .ok (rs, d')) (hl : NeverTooLow m 0 (cs.zip rs)) :
    (allOut rs).length ≤ lastFileLimit m cs := by
  have hi := DecInv.new.calls hh
  have hi1 : DecInv (d.setMaxFile m).2 := hi.call (c := .setMaxFile m) rfl
  have hi2 := (hi1.start dict).1
  have hm : ((d.setMaxFile m).2.start dict).top.maxFile = m ∧ ((d.setMaxFile m).2.start dict).top.total = 0 ∧
      ((d.setMaxFile m).2.start dict).top.owed = 0 := by
    simp [Decoder.setMaxFile, Decoder.start, Level.start, hd, Level.reset, Level.owed]
  have := never_too_low hi2 hcs (n := 0) (fun _ => ⟨by omega, by omega⟩) (Nat.zero_le _) hc (by rw [hm.1]; exact hl)
  rw [hm.1, Nat.zero_add] at this
  exact this

/-- Non-vacuity: the limit of 3 is raised to 6 for the second window, and not for the third, which is refused. -/
example : ((((({} : Decoder).setAllowTarget false).setMaxFile 3).2.start []).calls
      [.chunk stdDelta, .setMaxFile 6, .chunk (stdDelta.drop 5), .chunk (stdDelta.drop 5)]).toOption.map
      (fun p => p.1.map fun r => (r.ret, r.out.length)) = some [(true, 3), (true, 0), (true, 3), (false, 0)] ∧
    lastFileLimit 3 [.chunk stdDelta, .setMaxFile 6, .chunk (stdDelta.drop 5), .chunk (stdDelta.drop 5)] = 6 ∧
    NeverTooLow 3 0 ([DecoderCall.chunk stdDelta, .setMaxFile 6, .chunk (stdDelta.drop 5), .chunk (stdDelta.drop 5)].zip
      [⟨true, [1, 2, 3]⟩, ⟨true, []⟩, ⟨true, [1, 2, 3]⟩, ⟨false, []⟩]) := by
  refine ⟨by decide +kernel, rfl, Or.inl (by decide), True.intro⟩

/-- C87: what is accepted with limits that are changed on the way is a delta that is accepted, with the same output, under the largest limits, set once and for all;
so it is one of the deltas of which C07 and C09 say what they mean. (For targets of up to 2^63 bytes.) -/
theorem accepted_with_largest_limits (h : List DecoderCall) (rs0 : List DecoderReply) (d : Decoder)
    (hh : ({} : Decoder).calls h = .ok (rs0, d)) (hd : d.top.started = false) (dict : Bytes)
    (cs : List DecoderCall) (hcs : ∀ c ∈ cs, decodesOrSetsLimit c) (rs : List DecoderReply) (d' : Decoder)
    (hc : (d.start dict).calls cs = .ok (rs, d')) (hr : ∀ p ∈ answers cs rs, p.2.ret = true) (hf : d'.finish.1 = true)
    (hl : (allOut rs).length ≤ 2 ^ 63) :
    (largestLimits d).decode dict (chunksOf cs) = some (allOut rs) := by
  have hi := (DecInv.new.calls hh).start dict
  have hm : (d.start dict).top.total = 0 ∧ (d.start dict).top.owed = 0 := by
    simp [Decoder.start, Level.start, hd, Level.reset, Level.owed]
  have := largest_feed hi.1 hi.2 hcs (n := 0) (by omega) hc hr (by omega)
  have e : (largestLimits d).start dict = largestLimits (d.start dict) := by
    have hd' : (largestLimits d).top.started = false := hd
    simp only [Decoder.start, Level.start, hd, hd']
    rfl
  unfold Decoder.decode
  rw [e, this]
  simp only
  have e2 : (largestLimits d').finish.1 = d'.finish.1 := rfl
  rw [e2, if_pos hf]

/-- Non-vacuity: the limits are raised for each window, and lowered in between. -/
example : ((({} : Decoder).start []).calls
      [.setMaxWin 3, .chunk stdDelta, .setMaxWin 0, .setMaxWin 3, .setMaxFile 6, .chunk (stdDelta.drop 5)]).toOption.map
      (fun p => (p.1.map DecoderReply.ret, p.2.finish.1, allOut p.1)) =
    some ([true, true, true, true, true, true], true, ((largestLimits {}).decode [] [stdDelta, stdDelta.drop 5]).getD []) := by
  decide +kernel

end Vcd.Props
