import Verif.Proof.Reuse
import Verif.Proof.Faults

/-!
# C02 - C06, C11 - C14, C38 - C40: the streaming decoder under arbitrary call sequences

The statements use the API (`Decoder.call`, `Decoder.calls`, `Decoder.decode`) and the vocabulary of
`Verif.Spec.Decoder`. `d.top.started = false` says that the decoder `d` is not in the middle of a
decode; `d` may have any settings and any history. A new decoder is `{}`.
-/

namespace Vcd.Props
open Vcd Vcd.Spec

/-- A delta in the standard format for the target `abc`: one window, one ADD. -/
def stdDelta : Bytes := [0xD6, 0xC3, 0xC4, 0, 0, 0, 9, 3, 0, 3, 1, 0, 0x61, 0x62, 0x63, 4]

/-- A delta in the interleaved format for the target `abc`. -/
def interDelta : Bytes := [0xD6, 0xC3, 0xC4, 0x53, 0, 0, 9, 3, 0, 0, 4, 0, 4, 0x61, 0x62, 0x63]

/-! ## C02 -/

/-- C02: `css` groups the chunks of a fine delivery into the chunks of a coarse one. If the coarse
delivery succeeds, so does the fine one, with the same output. -/
theorem finer_chunks_same_output (d : Decoder) (hd : d.top.started = false) (dict out : Bytes)
    (css : List (List Bytes)) (h : d.decode dict (css.map List.flatten) = some out) :
    d.decode dict css.flatten = some out :=
  decode_refine hd h

/-- C02: two successful deliveries of the same bytes give the same output. -/
theorem deliveries_agree (d : Decoder) (hd : d.top.started = false) (dict : Bytes)
    (cs cs' : List Bytes) (hcs : cs.flatten = cs'.flatten) (out out' : Bytes)
    (h : d.decode dict cs = some out) (h' : d.decode dict cs' = some out') : out = out' := by
  have h1 := decode_singles hd h
  have h2 := decode_singles hd h'
  rw [hcs, h2] at h1
  exact (Option.some.inj h1).symm

/-- C02: what decodes in one call decodes to the same output however it is cut into chunks. -/
theorem one_call_then_any_chunks (d : Decoder) (hd : d.top.started = false) (dict delta out : Bytes)
    (h : d.decode dict [delta] = some out) (cs : List Bytes) (hcs : cs.flatten = delta) :
    d.decode dict cs = some out := by
  have := decode_refine hd (css := [cs]) (dict := dict) (out := out) (by rw [← hcs] at h; exact h)
  simpa using this

/-- C02 for `VCDiffDecoder::Decode`. -/
theorem simple_decode_then_any_chunks (dict delta out : Bytes) (h : vcdiffDecode dict delta = some out)
    (cs : List Bytes) (hcs : cs.flatten = delta) : ({} : Decoder).decode dict cs = some out :=
  one_call_then_any_chunks {} rfl dict delta out h cs hcs

example : ({} : Decoder).decode [] [interDelta.take 6, interDelta.drop 6] = some [0x61, 0x62, 0x63] ∧
    ({} : Decoder).decode [] [interDelta] = some [0x61, 0x62, 0x63] ∧
    ({} : Decoder).decode [] [interDelta.take 13, [], (interDelta.drop 13).take 1, interDelta.drop 14]
      = some [0x61, 0x62, 0x63] := by decide +kernel

/-! ## C03 -/

/-- C03 for the standard format without a custom code table: the result of the whole decode (failure,
or the output) is the same for every chunking. Missing from the full claim: files with version
byte `'S'`, for which it is false (`verdict_depends_on_chunks`), and files with a custom code
table. -/
theorem verdict_independent_partial (d : Decoder) (hd : d.top.started = false) (dict : Bytes)
    (cs cs' : List Bytes) (hcs : cs.flatten = cs'.flatten)
    (hx : ¬ Extended cs.flatten) (hp : ¬ CustomTable cs.flatten) :
    d.decode dict cs = d.decode dict cs' :=
  decode_std hd (by rw [← hcs]; exact hx) (by rw [← hcs]; exact hp) hcs

/-- The hypotheses hold for an acceptable and for an unacceptable file. -/
example : ¬ Extended stdDelta ∧ ¬ CustomTable stdDelta ∧
    ({} : Decoder).decode [] [stdDelta] = some [0x61, 0x62, 0x63] ∧
    ¬ Extended (stdDelta ++ [1]) ∧ ¬ CustomTable (stdDelta ++ [1]) ∧
    ({} : Decoder).decode [] [stdDelta ++ [1]] = none := by
  refine ⟨?_, ?_, by decide +kernel, ?_, ?_, by decide +kernel⟩ <;> simp [Extended, CustomTable, stdDelta]

/-- C03 is false for interleaved windows: these bytes are accepted in two calls and refused in one.
The first window announces fifteen bytes of instructions and needs four of them; what follows
happens to be a window. -/
theorem verdict_depends_on_chunks :
    let first : Bytes := [0xD6, 0xC3, 0xC4, 0x53, 0, 0, 0x14, 3, 0, 0, 0x0F, 0, 4, 0x61, 0x62, 0x63]
    let second : Bytes := [0, 9, 3, 0, 0, 4, 0, 4, 0x61, 0x62, 0x63]
    ({} : Decoder).decode [] [first, second] = some [0x61, 0x62, 0x63, 0x61, 0x62, 0x63] ∧
    ({} : Decoder).decode [] [first ++ second] = none := by decide +kernel

/-! ## C04, C05 -/

/-- C04, part: whatever calls are made on a new decoder, no call ends in an out-of-bounds read of the
dictionary, target or input, a reallocation under live pointers, a failed internal assertion or an
infinite loop. Missing: the signed addition of C05, and the address cache of a custom code table with 254
NEAR slots (`custom_cache_out_of_bounds`). For the latter, the chunks fed between a `StartDecoding` and the
fault, with no `FinishDecoding` in between, contain the header that announces these slots. -/
theorem decoder_faults_partial (cs : List DecoderCall) (f : Fault) (h : ({} : Decoder).calls cs = .error f) :
    f = .nearOverflow ∨ (f = .cacheOob ∧
      ∃ before dict session after, cs = before ++ .start dict :: (session ++ after) ∧ .finish ∉ session ∧
        AnnouncesNear254 (streamOf session)) := by
  rcases calls_fault_told DecInv.new h [] (by simp) with k | ⟨k, k1 | ⟨k1, _⟩⟩
  · exact Or.inl k
  · exact Or.inr ⟨k, k1⟩
  · simp at k1

/-- C04: so no delta without such a header makes the decoder leave its address cache. -/
theorem no_near_254_no_cache_fault (cs : List DecoderCall) (f : Fault) (h : ({} : Decoder).calls cs = .error f)
    (hn : ¬ AnnouncesNear254 (streamOf cs)) : f = .nearOverflow := by
  rcases decoder_faults_partial cs f h with k | ⟨_, before, dict, session, after, rfl, _, k⟩
  · exact k
  · refine absurd ?_ hn
    have e : ∀ a b : List DecoderCall, streamOf (a ++ b) = streamOf a ++ streamOf b := by
      intro a b
      induction a with
      | nil => rfl
      | cons c a ih => cases c <;> simp [streamOf, ih]
    have e2 : streamOf (before ++ .start dict :: (session ++ after)) = streamOf before ++ (streamOf session ++ streamOf after) := by
      rw [e, ← e session after]; rfl
    rw [e2]
    exact (k.of_prefix ⟨_, rfl⟩).of_suffix ⟨_, rfl⟩

/-- The condition can be checked: this stream, with a custom code table, has no byte `0x7E`, with which the number 254 ends. -/
example : ¬ AnnouncesNear254 ([0xD6, 0xC3, 0xC4, 0, 2, 4, 3] ++ stdDelta) := by
  rintro ⟨pre, v, ind, nb, post, h, _, _, h3, h4, _⟩
  have h7 : (0x7E : UInt8) ∈ nb := by
    obtain ⟨front, last, rfl, _, h2⟩ := h3
    simp only [varintValue, digitsValue, List.map_append, List.foldl_append, List.map_cons, List.map_nil, List.foldl_cons,
      List.foldl_nil, digit] at h4
    simp only [continues] at h2
    have : last = 0x7E := by
      apply UInt8.toNat_inj.1
      show last.toNat = 126
      omega
    simp [this]
  have : (0x7E : UInt8) ∈ [0xD6, 0xC3, 0xC4, 0, 2, 4, 3] ++ stdDelta := by rw [h]; simp [h7]
  revert this
  decide

/-- C04 for histories without custom code tables: no fault at all, except the signed addition of
C05. -/
theorem decoder_safe_plain (ss : List Session) (hp : ∀ s ∈ ss, ¬ CustomTable s.stream) (f : Fault)
    (h : ({} : Decoder).calls (ss.flatMap Session.calls) = .error f) : f = .nearOverflow :=
  (PlainIdle.sessions (d := {}) ⟨rfl, rfl, rfl⟩ DecInv.new ss hp).1 f h

/-- The fault a run ends in. -/
def faultOf {α : Type} : Except Fault α → Option Fault
  | .error f => some f
  | .ok _ => none

theorem eq_error_of {α : Type} {x : Except Fault α} {f : Fault} (h : faultOf x = some f) : x = .error f := by
  cases x with
  | error f' => simp only [faultOf, Option.some.injEq] at h; rw [h]
  | ok v => simp [faultOf] at h

/-- A session satisfying the hypothesis, in which windows are decoded. -/
def plainSession : Session where
  pre := [.setMaxFile 100]
  dict := []
  body := [.chunk (stdDelta.take 7), .setMaxFile 50, .chunk (stdDelta.drop 7)]
  pre_inner := by decide
  body_inner := by decide

example : ¬ CustomTable plainSession.stream ∧
    (({} : Decoder).calls plainSession.calls).toOption.map (fun p => allOut p.1) = some [0x61, 0x62, 0x63] := by
  refine ⟨by simp [CustomTable, plainSession, Session.stream, streamOf, stdDelta], by decide +kernel⟩

/-- C04 is false: a delta whose custom code table comes with 254 NEAR slots makes the decoder read
outside the address cache. -/
theorem custom_cache_out_of_bounds :
    ({} : Decoder).calls
      [.start [1, 2, 3, 4],
       .chunk ([0xD6, 0xC3, 0xC4, 0, 2, 0x81, 0x7E, 0] ++
         [0xD6, 0xC3, 0xC4, 0, 0, 1, 0x8C, 0, 0, 0x0A, 0x8C, 0, 0, 0, 3, 1, 0x13, 0x8C, 0, 0] ++
         [1, 4, 0, 7, 4, 0, 0, 1, 1, 0x14, 0])] = .error .cacheOob := eq_error_of (by decide +kernel)

/-- C05 is false: 22 bytes make the decoder overflow a signed 32-bit addition. -/
theorem near_overflow_reachable :
    ({} : Decoder).calls
      [.start [1, 2, 3, 4, 5, 6, 7, 8],
       .chunk [0xD6, 0xC3, 0xC4, 0, 0, 1, 8, 0, 0x0D, 8, 0, 0, 2, 6, 0x14, 0x34, 1,
               0x87, 0xFF, 0xFF, 0xFF, 0x7F]] = .error .nearOverflow := eq_error_of (by decide +kernel)

/-! ## C06 -/

/-- C06, file size: with the maximum target file size set to `m` before decoding starts, at most `m`
bytes are output, whatever the chunks contain and whether or not they are accepted. -/
theorem file_size_respected (h : List DecoderCall) (rs0 : List DecoderReply) (d : Decoder)
    (hh : ({} : Decoder).calls h = .ok (rs0, d)) (hd : d.top.started = false) (m : Nat) (dict : Bytes)
    (cs : List Bytes) (rs : List DecoderReply) (d' : Decoder)
    (hc : d.calls (.setMaxFile m :: .start dict :: cs.map .chunk) = .ok (rs, d')) :
    (allOut rs).length ≤ m := by
  obtain ⟨r1, d1, rs1, h1, h2, rfl⟩ := calls_cons_ok hc
  obtain ⟨r2, d2, rs2, h3, h4, rfl⟩ := calls_cons_ok h2
  have hi := (DecInv.new.calls hh)
  have hi2 := (hi.call h1).call h3
  simp only [Decoder.call, Except.ok.injEq, Prod.mk.injEq] at h1 h3
  obtain ⟨rfl, rfl⟩ := h1
  obtain ⟨rfl, rfl⟩ := h3
  have hm : ((d.setMaxFile m).2.start dict).top.maxFile = m ∧ ((d.setMaxFile m).2.start dict).top.total = 0 ∧
      ((d.setMaxFile m).2.start dict).top.owed = 0 := by
    simp [Decoder.setMaxFile, Decoder.start, Level.start, hd, Level.reset, Level.owed]
  have := file_limit hi2 (n := 0) (fun _ => ⟨by omega, by omega⟩) (Nat.zero_le _) h4
  rw [hm.1] at this
  simpa [allOut] using this

/-- Non-vacuity: the limit 5 lets the first of two windows of three bytes pass and stops the second. -/
example : (({} : Decoder).calls [.setMaxFile 5, .setAllowTarget false, .start [], .chunk stdDelta,
      .chunk (stdDelta.drop 5)]).toOption.map (fun p => p.1.map fun r => (r.ret, r.out.length)) =
    some [(true, 0), (true, 0), (true, 0), (true, 3), (false, 0)] := by decide +kernel

/-- C06 needs the limit to be set before decoding: lowered afterwards, it is not enforced. -/
theorem lowered_limit_ignored :
    (({} : Decoder).calls [.start [], .chunk stdDelta, .setMaxFile 2, .chunk (stdDelta.drop 5), .finish]).toOption.map
      (fun p => (p.1.map DecoderReply.ret, (allOut p.1).length)) =
    some ([true, true, true, true, true], 6) := by decide +kernel

/-! ## C11 -/

/-- C11: after any history `h`, once a `DecodeChunk` has returned false, any further calls other than
`StartDecoding` complete without a fault; all of them output nothing, and each `DecodeChunk` and
`FinishDecoding` among them returns false. -/
theorem failure_sticky (h : List DecoderCall) (rs : List DecoderReply) (d d1 : Decoder)
    (hh : ({} : Decoder).calls h = .ok (rs, d)) (data : Bytes) (r : DecoderReply)
    (hc : d.call (.chunk data) = .ok (r, d1)) (hr : r.ret = false)
    (cs : List DecoderCall) (hcs : ∀ c ∈ cs, ∀ dict, c ≠ .start dict) :
    ∃ rs' d', d1.calls cs = .ok (rs', d') ∧ rs'.length = cs.length ∧
      ∀ p ∈ cs.zip rs', p.2.out = [] ∧ ((∃ data, p.1 = .chunk data) ∨ p.1 = .finish → p.2.ret = false) := by
  have hi := DecInv.new.calls hh
  have hs : d1.top.started = false := by
    by_cases hs : d.top.started = true
    · have i2 := (chunk_inv (hi hs).1 data).2.1
      simp only [Decoder.call, decodeChunk_eq] at hc
      cases hx : chunkRun d.top d.nested data with
      | fault f => simp [hx] at hc
      | ok L ns o =>
        simp only [hx, Except.ok.injEq, Prod.mk.injEq] at hc
        rw [← hc.1] at hr
        simp at hr
      | error L o =>
        simp only [hx, Except.ok.injEq, Prod.mk.injEq] at hc
        rw [← hc.2]
        exact (i2 _ _ hx).stopped
    · have hs' : d.top.started = false := by simpa using hs
      rw [chunk_stopped hs'] at hc
      simp only [Except.ok.injEq, Prod.mk.injEq] at hc
      rw [← hc.2]
      rfl
  obtain ⟨rs', d', h1, _, _, h4⟩ := stopped_calls hs hcs
  exact ⟨rs', d', h1, calls_length h1, h4⟩

/-- Non-vacuity: a failing chunk in the middle of a decode. -/
example : (({} : Decoder).calls [.start [], .chunk stdDelta, .chunk [0], .chunk [9, 3, 1], .chunk stdDelta, .setMaxFile 7,
      .finish]).toOption.map (fun p => p.1.map fun r => (r.ret, r.out.length)) =
    some [(true, 0), (true, 3), (true, 0), (false, 0), (false, 0), (true, 0), (false, 0)] := by decide +kernel

/-! ## C12 -/

/-- C12, part: after any number of complete uses of a decoder on files without a custom code table
(accepted or not), a further use gives exactly the replies (and leaves exactly the state) that a
new decoder with the same settings would give. Missing: files with a custom code table, for which
it is false (`custom_table_leaks`). -/
theorem decoder_reuse_partial (ss : List Session) (hp : ∀ s ∈ ss, ¬ CustomTable s.stream)
    (ht : ∀ s ∈ ss, ∀ b, DecoderCall.setAllowTarget b ∉ s.body)
    (rs : List DecoderReply) (d : Decoder) (h : ({} : Decoder).calls (ss.flatMap Session.calls) = .ok (rs, d))
    (dict : Bytes) (cs : List DecoderCall) :
    d.calls (.start dict :: cs) =
      (configured (Settings.after {} (ss.flatMap Session.calls))).calls (.start dict :: cs) := by
  have hi := ((PlainIdle.sessions (d := {}) ⟨rfl, rfl, rfl⟩ DecInv.new ss hp).2 _ _ h).1
  have hset := settings_sessions DecInv.new rfl ht h
  have h0 : ({} : Decoder).settings = {} := rfl
  rw [h0] at hset
  rw [← hset]
  exact calls_start_congr (start_configured hi dict) cs

/-- `FinishDecoding` may be left out after a failed `DecodeChunk`. -/
theorem finish_after_failure_optional (h : List DecoderCall) (rs : List DecoderReply) (d : Decoder)
    (_hh : ({} : Decoder).calls h = .ok (rs, d)) (hd : d.top.started = false) (dict : Bytes) (cs : List DecoderCall) :
    d.calls (.start dict :: cs) = d.finish.2.calls (.start dict :: cs) :=
  calls_start_congr (start_after_finish hd dict) cs

/-- A session that fails, satisfying the hypotheses of `decoder_reuse_partial`. -/
def failingSession : Session where
  pre := []
  dict := [7]
  body := [.chunk stdDelta, .chunk [1, 2, 3]]
  pre_inner := by decide
  body_inner := by decide

example : ¬ CustomTable failingSession.stream ∧ (∀ b, DecoderCall.setAllowTarget b ∉ failingSession.body) ∧
    (({} : Decoder).calls failingSession.calls).toOption.map (fun p => p.1.map DecoderReply.ret) =
      some [true, true, false, false] := by
  refine ⟨by simp [CustomTable, failingSession, Session.stream, streamOf, stdDelta],
    by simp [failingSession], by decide +kernel⟩

/-- C12 is false in general: after decoding a file with a custom code table (here the default table
with opcode 2 changed from ADD 1 to ADD 5), a delta that a new decoder accepts is refused, and one
that a new decoder refuses is accepted. -/
theorem custom_table_leaks :
    let custom : Bytes := [0xD6, 0xC3, 0xC4, 0, 2, 4, 3, 0xD6, 0xC3, 0xC4, 0, 0, 1, 0x8C, 0, 0, 0x11, 0x8C, 0, 0,
      1, 7, 3, 5, 0x13, 0x84, 2, 2, 0x13, 0x87, 0x7D, 0, 0x84, 3]
    let good : Bytes := [0xD6, 0xC3, 0xC4, 0, 0, 0, 7, 1, 0, 1, 1, 0, 0x61, 2]
    let bad : Bytes := [0xD6, 0xC3, 0xC4, 0, 0, 0, 0xB, 5, 0, 5, 1, 0, 0x61, 0x62, 0x63, 0x64, 0x65, 2]
    ∃ rs d, ({} : Decoder).calls [.start [], .chunk custom, .finish] = .ok (rs, d) ∧
      rs.map DecoderReply.ret = [true, true, true] ∧
      ({} : Decoder).decode [] [good] = some [0x61] ∧ d.decode [] [good] = none ∧
      ({} : Decoder).decode [] [bad] = none ∧ d.decode [] [bad] = some [0x61, 0x62, 0x63, 0x64, 0x65] := by
  intro custom good bad
  have key : (match ({} : Decoder).calls [.start [], .chunk custom, .finish] with
    | .error _ => false
    | .ok (rs, d) => decide (rs.map DecoderReply.ret = [true, true, true] ∧
      ({} : Decoder).decode [] [good] = some [0x61] ∧ d.decode [] [good] = none ∧
      ({} : Decoder).decode [] [bad] = none ∧ d.decode [] [bad] = some [0x61, 0x62, 0x63, 0x64, 0x65])) = true := by
    decide +kernel
  cases hx : ({} : Decoder).calls [.start [], .chunk custom, .finish] with
  | error f => rw [hx] at key; simp at key
  | ok p =>
    rw [hx] at key
    exact ⟨p.1, p.2, rfl, of_decide_eq_true key⟩

/-! ## C13 -/

/-- C13: if some delivery of a delta decodes to `T`, then feeding any prefix of the delta, in any
chunks, causes no fault, and everything output is a prefix of `T`. -/
theorem prefix_outputs_prefix (d : Decoder) (hd : d.top.started = false) (dict T : Bytes) (full : List Bytes)
    (h : d.decode dict full = some T) (cs : List Bytes) (hcs : cs.flatten <+: full.flatten) :
    ∃ rs d', d.calls (.start dict :: cs.map .chunk) = .ok (rs, d') ∧ allOut rs <+: T := by
  obtain ⟨rest, hrest⟩ := hcs
  have h1 := decode_singles hd h
  obtain ⟨e, h2, _⟩ := decode_some.1 h1
  rw [← hrest] at h2
  have hf := Fed.start d hd dict
  obtain ⟨rs, d', h3, h4⟩ := deliver_prefix hf hf (ChainEqv.refl _ _) h2
  have hcall : d.call (.start dict) = .ok (⟨true, []⟩, d.start dict) := rfl
  exact ⟨_, d', by rw [calls_cons hcall, h3], by simpa [allOut] using h4⟩

/-- C13: a truncated delta that is accepted as complete decodes to a prefix of the full target. -/
theorem truncated_decodes_to_prefix (d : Decoder) (hd : d.top.started = false) (dict T T' : Bytes) (full cs : List Bytes)
    (h : d.decode dict full = some T) (hcs : cs.flatten <+: full.flatten) (h' : d.decode dict cs = some T') :
    T' <+: T := by
  obtain ⟨rest, hrest⟩ := hcs
  obtain ⟨e, h2, _⟩ := decode_some.1 (decode_singles hd h)
  obtain ⟨e', h3, _⟩ := decode_some.1 (decode_singles hd h')
  have : singles full.flatten = singles cs.flatten ++ singles rest := by rw [← hrest]; simp [singles]
  rw [this, feed_append] at h2
  obtain ⟨d1, o1, o2, k1, _, rfl⟩ := h2
  rw [h3] at k1
  simp only [Option.some.injEq, Prod.mk.injEq] at k1
  rw [k1.1]
  exact List.prefix_append _ _

example : ({} : Decoder).decode [] [stdDelta ++ stdDelta.drop 5] = some [0x61, 0x62, 0x63, 0x61, 0x62, 0x63] ∧
    ({} : Decoder).decode [] [stdDelta] = some [0x61, 0x62, 0x63] := by decide +kernel

/-! ## C14 -/

/-- C14: `cs` are chunks without an offending byte, `c` the chunk with the first offending byte of the
file header. Every call up to there returns true and outputs nothing; the call with `c` returns
false and outputs nothing. -/
theorem bad_header_rejected (d : Decoder) (hd : d.top.started = false) (dict : Bytes) (cs : List Bytes) (c : Bytes)
    (hok : ¬ HeaderBad cs.flatten) (hbad : HeaderBad (cs.flatten ++ c)) :
    ∃ d', d.calls (.start dict :: (cs.map .chunk ++ [.chunk c])) =
      .ok (⟨true, []⟩ :: (List.replicate cs.length ⟨true, []⟩ ++ [⟨false, []⟩]), d') := by
  have hf := Fed.start d hd dict
  have hs := StdInv.start d hd dict
  have hc : (d.start dict).top.cache = none := by
    simp [Decoder.start, Level.start, hd, Level.reset]
  have hu := hs.fresh hc
  obtain ⟨d2, h1, _⟩ := header_bad_calls hf hc (cs := cs) (c := c) (by rw [hu]; exact hok) (by rw [hu]; exact hbad)
  have hcall : d.call (.start dict) = .ok (⟨true, []⟩, d.start dict) := rfl
  exact ⟨d2, by rw [calls_cons hcall, h1]⟩

/-- Non-vacuity: three good bytes, then a chunk whose second byte (version 1) is wrong. -/
example : ¬ HeaderBad ([[0xD6, 0xC3], [0xC4]] : List Bytes).flatten ∧
    HeaderBad (([[0xD6, 0xC3], [0xC4]] : List Bytes).flatten ++ [1, 0]) := by
  constructor
  · rintro ⟨i, b, h1, h2⟩
    match i with
    | 0 | 1 | 2 => simp_all [headerByteOk]
    | i + 3 => simp at h1
  · exact ⟨3, 1, rfl, by simp [headerByteOk]⟩

/-! ## C38 -/

/-- C38: `SetMaximumTargetWindowSize` returns false, changing nothing, exactly for values above
2^31 - 1. -/
theorem set_window_size_exact (d : Decoder) (n : Nat) :
    (n > 2147483647 → d.call (.setMaxWin n) = .ok (⟨false, []⟩, d)) ∧
    (n ≤ 2147483647 → ∃ d', d.call (.setMaxWin n) = .ok (⟨true, []⟩, d') ∧ d'.top.maxWin = n) := by
  refine ⟨fun h => ?_, fun h => ?_⟩
  · have : n > targetSizeLimit := h
    simp [Decoder.call, Decoder.setMaxWin, this]
  · have : ¬ n > targetSizeLimit := by unfold targetSizeLimit; omega
    simp [Decoder.call, Decoder.setMaxWin, this]

/-- C38 is false for `SetMaximumTargetFileSize`: it accepts every value. -/
theorem set_file_size_accepts_all (d : Decoder) (n : Nat) :
    ∃ d', d.call (.setMaxFile n) = .ok (⟨true, []⟩, d') ∧ d'.top.maxFile = n := ⟨_, rfl, rfl⟩

/-! ## C39 -/

/-- C39 is false: this delta announces a custom code table that consists of 1536 zero bytes, which is
not a valid table; it is accepted, and decoded with the default table. -/
theorem invalid_table_ignored :
    ({} : Decoder).decode []
      [[0xD6, 0xC3, 0xC4, 0, 2, 4, 3] ++
       [0xD6, 0xC3, 0xC4, 0, 0, 0, 0x0A, 0x8C, 0, 0, 1, 3, 0, 0, 0, 0x8C, 0] ++ stdDelta.drop 5] =
    some [0x61, 0x62, 0x63] ∧
    ({} : Decoder).decode [] [[0xD6, 0xC3, 0xC4, 0, 0, 0, 0x0A, 0x8C, 0, 0, 1, 3, 0, 0, 0, 0x8C, 0]] =
      some (List.replicate 1536 0) := by decide +kernel

/-! ## C40 -/

/-- C40 is false: for every `n`, the `7 n` bytes made of `n` copies of a file header are accepted and
leave `n` nested decoders behind. -/
theorem nesting_unbounded (n : Nat) :
    ∃ d', ({} : Decoder).calls
        [.start [], .chunk (List.replicate n [0xD6, 0xC3, 0xC4, 0, 2, 4, 3]).flatten] =
      .ok ([⟨true, []⟩, ⟨true, []⟩], d') ∧ d'.nested.length = n := by
  obtain ⟨h1, _⟩ := start_inv {} rfl []
  obtain ⟨L, ns, h2, h3⟩ := nest_run n h1 rfl rfl
  refine ⟨{ top := L, nested := ns }, ?_, h3⟩
  have hcall : ({} : Decoder).call (.start []) = .ok (⟨true, []⟩, { top := ({} : Level).start [], nested := [] }) := rfl
  rw [calls_cons hcall]
  simp only [Decoder.calls, Decoder.call, decodeChunk_eq]
  have h2' : chunkRun (({} : Level).start []) [] (List.replicate n [0xD6, 0xC3, 0xC4, 0, 2, 4, 3]).flatten =
    .ok L ns [] := h2
  rw [h2']

end Vcd.Props
