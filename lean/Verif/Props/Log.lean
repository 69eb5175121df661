import Verif.Proof.LogCalls
import Verif.Proof.EncoderLog
import Verif.Proof.ReleaseUse
import Verif.Props.WriterInterface

/-!
# C80, C81: what is written to the standard error stream

`d.callLog c` and `e.callLog c` are the messages that a call writes (`Verif.Model.Log`, `Verif.Model.EncoderLog`).
-/

namespace Vcd.Props
open Vcd Vcd.Spec

/-! ## The decoder -/

/-- C80: after any history of calls, a call of the decoder that returns false, or is out of place (`misuse`), writes a message; and it does so by a
message that is not about an embedded code table, which no other call writes. -/
theorem decoder_reports (cs : List DecoderCall) (rs : List DecoderReply) (d : Decoder) (h : Decoder.calls {} cs = .ok (rs, d))
    (c : DecoderCall) (r : DecoderReply) (d' : Decoder) (hc : d.call c = .ok (r, d')) :
    (∃ m ∈ d.callLog c, m ≠ .badTable) ↔ r.ret = false ∨ misuse (active (cs.zip rs)) c ≠ none := by
  have ha : active (cs.zip rs) = d.top.started := (calls_active DecInv.new h).symm
  rw [ha]
  exact callLog_explains serious_ne (DecTyped.new.calls h) c
    (fun data _ => decodeChunk_explains serious_ne validateLog_not_serious _ _ _ _) hc

/-- C81 for the decoder: after any history of calls, a call writes nothing if and only if it returns true and is in place; for `DecodeChunk`, if the file
does not announce a code table of its own. -/
theorem decoder_silent_partial (cs : List DecoderCall) (rs : List DecoderReply) (d : Decoder) (h : Decoder.calls {} cs = .ok (rs, d))
    (c : DecoderCall) (r : DecoderReply) (d' : Decoder) (hc : d.call c = .ok (r, d'))
    (hp : ∀ data, c = .chunk data → ¬ CustomTable (fileSoFar (cs.zip rs) ++ data)) :
    d.callLog c = [] ↔ r.ret = true ∧ misuse (active (cs.zip rs)) c = none := by
  have ha : active (cs.zip rs) = d.top.started := (calls_active DecInv.new h).symm
  have hf := PassedInv.new.calls DecInv.new h
  have := callLog_explains serious_true (DecTyped.new.calls h) c
    (fun data he => plain_chunk_explains serious_true hf (hp data he)) hc
  rw [reported_true, ← ha] at this
  constructor
  · intro hn
    have h2 := mt this.2 (by simp [hn])
    grind
  · intro hr
    have h2 := mt this.1 (by grind)
    grind

/-- The hypotheses are met: a file in two chunks that is accepted, and a second file whose first chunk is refused. -/
example : ∃ rs d, Decoder.calls {} [.start [], .chunk [0xD6, 0xC3, 0xC4, 0, 0, 0, 9, 3, 0, 3],
      .chunk [1, 0, 0x61, 0x62, 0x63, 4], .finish, .start [1]] = .ok (rs, d) ∧
    rs.map DecoderReply.ret = [true, true, true, true, true] ∧
    Decoder.callsLog {} [.start [], .chunk [0xD6, 0xC3, 0xC4, 0, 0, 0, 9, 3, 0, 3],
      .chunk [1, 0, 0x61, 0x62, 0x63, 4], .finish, .start [1]] = [] ∧
    ¬ CustomTable (fileSoFar ([.start [], .chunk [0xD6, 0xC3, 0xC4, 0, 0, 0, 9, 3, 0, 3],
      .chunk [1, 0, 0x61, 0x62, 0x63, 4], .finish, .start [1]].zip rs) ++ [0xD6, 0xC3, 0xC4, 0, 0, 0, 9, 3, 0, 3, 2, 0]) ∧
    ((d.call (.chunk [0xD6, 0xC3, 0xC4, 0, 0, 0, 9, 3, 0, 3, 2, 0])).map fun p => p.1.ret) = .ok false ∧
    d.callLog (.chunk [0xD6, 0xC3, 0xC4, 0, 0, 0, 9, 3, 0, 3, 2, 0]) = [.deltaLength] := by
  refine ⟨_, _, rfl, by decide +kernel, by decide +kernel, ?_, rfl, by decide +kernel⟩
  rintro ⟨b, h1, h2⟩
  have : b = 0 := by
    simp only [fileSoFar, List.zip_cons_cons, List.zip_nil_right, List.foldl_cons, List.foldl_nil, fileStep] at h1
    simp at h1
    exact h1.symm
  subst this
  exact absurd h2 (by decide)

/-- C81, about embedded code tables: there is a message about a table if and only if the table cannot be used. -/
theorem table_reported (t : CodeTable) (maxMode : Nat) : t.validateLog maxMode = [] ↔ t.validate maxMode = true := validateLog_eq_nil t maxMode

/-- C81 does not hold of files with an embedded code table that cannot be used: the file is accepted (`invalid_table_ignored`), with messages. -/
theorem ignored_table_reported : ∃ ms, ms ≠ [] ∧ (∀ m ∈ ms, m = .badTable) ∧
    Decoder.callsLog {} [.start [], .chunk ([0xD6, 0xC3, 0xC4, 0, 2, 4, 3] ++
      [0xD6, 0xC3, 0xC4, 0, 0, 0, 0x0A, 0x8C, 0, 0, 1, 3, 0, 0, 0, 0x8C, 0] ++ [0, 9, 3, 0, 3, 1, 0, 0x61, 0x62, 0x63, 4]), .finish] = ms ∧
    ({} : Decoder).decode [] [[0xD6, 0xC3, 0xC4, 0, 2, 4, 3] ++
      [0xD6, 0xC3, 0xC4, 0, 0, 0, 0x0A, 0x8C, 0, 0, 1, 3, 0, 0, 0, 0x8C, 0] ++ [0, 9, 3, 0, 3, 1, 0, 0x61, 0x62, 0x63, 4]] =
        some [0x61, 0x62, 0x63] := by
  refine ⟨List.replicate 11 .badTable, by decide, by decide, by decide +kernel, by decide +kernel⟩

/-! ## The encoder -/

/-- C80: whatever the state of the encoder, a call that returns false writes the message that says so, and no other call writes one of these. -/
theorem encoder_reports (e e' : Encoder) (c : EncoderCall) (r : EncoderReply) (h : e.call c = .ok (r, e')) :
    (∃ m ∈ e.callLog c, m.refusal = true) ↔ r.ret = false := Encoder.callLog_refusal h

/-- C80, C81, for an encoder with any writer of the caller: the encoder itself writes a message if and only if the call returns false. -/
theorem custom_encoder_reports {σ : Type} (e e' : StreamEncoder σ) (c : EncoderCall) (r : EncoderReply) (h : e.call c = .ok (r, e')) :
    e.callLog c = [] ↔ r.ret = true := by
  cases c with
  | start =>
    simp only [StreamEncoder.call, StreamEncoder.start] at h
    simp only [StreamEncoder.callLog]
    cases h1 : e.writer.init e.state e.engine.dictionary.length with
    | error f => simp [h1] at h
    | ok p =>
      obtain ⟨b, s⟩ := p
      cases b with
      | false => simp only [h1, Except.ok.injEq, Prod.mk.injEq] at h; simp [← h.1]
      | true =>
        simp only [h1] at h ⊢
        cases h2 : e.writer.verifyDictionary s e.engine.dictionary with
        | error f => simp [h2] at h
        | ok p =>
          obtain ⟨b, s⟩ := p
          cases b with
          | false => simp only [h2, Except.ok.injEq, Prod.mk.injEq] at h; simp [← h.1]
          | true =>
            simp only [h2] at h
            cases h3 : e.writer.writeHeader s e.flags with
            | error f => simp [h3] at h
            | ok p => simp only [h3, Except.ok.injEq, Prod.mk.injEq] at h; simp [← h.1]
  | chunk data =>
    simp only [StreamEncoder.call, StreamEncoder.chunk] at h
    simp only [StreamEncoder.callLog]
    cases ha : e.allowed with
    | false => simp only [ha, Bool.not_false, if_true, Except.ok.injEq, Prod.mk.injEq] at h; simp [← h.1]
    | true =>
      simp only [ha, Bool.not_true, Bool.false_eq_true, if_false] at h ⊢
      cases h2 : e.writer.verifyChunk e.state data with
      | error f => simp [h2] at h
      | ok p =>
        obtain ⟨b, s⟩ := p
        cases b with
        | false => simp only [h2, Except.ok.injEq, Prod.mk.injEq] at h; simp [← h.1]
        | true =>
          simp only [h2] at h ⊢
          have : r.ret = true := by
            (repeat' split at h) <;> first
              | (simp only [Except.ok.injEq, Prod.mk.injEq] at h; rw [← h.1])
              | simp at h
          simp [this]
  | finish =>
    simp only [StreamEncoder.call, StreamEncoder.finish] at h
    simp only [StreamEncoder.callLog]
    cases ha : e.allowed with
    | false => simp only [ha, Bool.not_false, if_true, Except.ok.injEq, Prod.mk.injEq] at h; simp [← h.1, noteIf]
    | true =>
      simp only [ha, Bool.not_true, Bool.false_eq_true, if_false] at h
      cases h3 : e.writer.finishEncoding e.state with
      | error f => simp [h3] at h
      | ok p => simp only [h3, Except.ok.injEq, Prod.mk.injEq] at h; simp [← h.1, noteIf]

/-- The hypotheses are met by calls of both kinds, of an encoder that has not been started. -/
example (engine : Engine) :
    (∃ r e', (StreamEncoder.mk engine onceWriter false 0 true false).call .finish = .ok (r, e') ∧ r.ret = false) ∧
    (StreamEncoder.mk engine onceWriter false 0 true false).callLog .finish = [.finishBeforeStart] := by
  exact ⟨⟨_, _, rfl, rfl⟩, rfl⟩

/-- C81 for the binary formats: after any history of calls, a call of the encoder writes nothing if and only if it returns true. In particular it never
writes one of the warnings about its own instructions and windows. (There are such calls for every dictionary of fewer than 2^31 bytes and every history,
by `encoder_never_faults`.) -/
theorem binary_encoder_silent_partial (dict : Bytes) (engine : Engine) (he : Engine.init dict = .ok (some engine)) (flags : Nat)
    (hb : flags &&& 4 = 0) (matching : Bool) (cs : List EncoderCall)
    (hs : EachChunk (fun data => dict.length + data.length < 2 ^ 31 ∧ data.length + 64 < 2 ^ 31) cs)
    (rs : List EncoderReply) (e : Encoder) (h : (Encoder.new engine flags matching).calls cs = .ok (rs, e))
    (c : EncoderCall) (hsc : EachChunk (fun data => dict.length + data.length < 2 ^ 31 ∧ data.length + 64 < 2 ^ 31) [c])
    (r : EncoderReply) (e' : Encoder) (hc : e.call c = .ok (r, e')) :
    e.callLog c = [] ↔ r.ret = true := by
  obtain ⟨m, u⟩ := Encoder.usable
  have hd : engine.dictionary = dict := (Engine.initCall_first he).2.2
  obtain ⟨e1, k1, k2⟩ := Encoder.calls_ok (e0 := Encoder.new engine flags matching) (dict := dict) u he hd
      (Encoder.new_inv hb m) hs
  rw [h] at k1
  simp only [Except.ok.injEq, Prod.mk.injEq] at k1
  rw [← k1.2] at k2
  exact Encoder.callLog_binary u he hd k2 (fun data hx => hsc data (by simp [hx])) hc

/-- The hypotheses are met: a chunk after `StartEncoding`, which is encoded without a message, and one before it, which is refused with one. -/
example : ∃ engine rs e r e', Engine.init [0x61] = .ok (some engine) ∧ (Encoder.new engine 3 true).calls [.start] = .ok (rs, e) ∧
    e.call (.chunk [0x62, 0x63]) = .ok (r, e') ∧ r.ret = true ∧ e.callLog (.chunk [0x62, 0x63]) = [] ∧
    (Encoder.new engine 3 true).callLog (.chunk [0x62, 0x63]) = [.chunkBeforeStart] := by
  obtain ⟨engine, hashed, h1, h2, _⟩ := Engine.init_ok (dict := [0x61]) (by decide)
  have hd : engine.dictionary = [0x61] := by rw [h2]
  obtain ⟨m, u⟩ := Encoder.usable
  have s2 : Encoder.Inv (Encoder.new engine 3 true) m (Encoder.new engine 3 true) := Encoder.new_inv (by decide) m
  obtain ⟨e1, k1, k2, k3⟩ := Encoder.start_ok u s2
  obtain ⟨e2, j1, j2, j3⟩ := Encoder.chunk_ok u h1 hd k2 k3 (data := [0x62, 0x63]) ⟨by decide, by decide⟩
  have kc : (Encoder.new engine 3 true).calls [.start] = .ok ([⟨true, Writer.header (Encoder.new engine 3 true).flags⟩], e1) := by
    simp only [Encoder.calls, k1]
  refine ⟨engine, _, e1, _, e2, h1, kc, j1, rfl, ?_, rfl⟩
  exact binary_encoder_silent_partial [0x61] engine h1 3 (by decide) true [.start] (fun d hd => absurd hd (by simp)) _ e1
    kc _ (fun d hd => by simp at hd; subst hd; decide) _ e2 j1 |>.2 rfl

/-- C81 is false of the JSON format: every `StartEncoding`, and every `EncodeChunk` that returns true, writes an error about characters that are not
ASCII, in whatever state, and although there are none. -/
theorem json_encoder_never_silent (e e' : Encoder) (w : JsonWriter) (hj : e.coder = .json w) (data : Bytes) (r : EncoderReply) :
    (e.call .start = .ok (r, e') → .jsonDictionary ∈ e.callLog .start) ∧
    (e.call (.chunk data) = .ok (r, e') → r.ret = true → .jsonTarget ∈ e.callLog (.chunk data)) := by
  constructor
  · intro _
    simp [Encoder.callLog, Encoder.startLog, hj]
  · intro h hr
    have ha : e.allowed = true := by
      cases ha : e.allowed with
      | true => rfl
      | false =>
        rw [Encoder.chunk_refused ha] at h
        simp only [Except.ok.injEq, Prod.mk.injEq] at h
        rw [← h.1] at hr
        simp at hr
    simp [Encoder.callLog, Encoder.chunkLog, ha, hj]

/-- The hypotheses of `json_encoder_never_silent` are met, and the messages are those of a call that fails: an encoding of ASCII characters. -/
theorem json_errors_without_cause : ∃ engine rs e, Engine.init [0x61] = .ok (some engine) ∧
    (Encoder.new engine 4 true).calls [.start, .chunk [0x62, 0x63], .finish] = .ok (rs, e) ∧
    rs.map EncoderReply.ret = [true, true, true] ∧
    (Encoder.new engine 4 true).callsLog [.start, .chunk [0x62, 0x63], .finish] = [.jsonDictionary, .jsonTarget] := by
  refine ⟨_, _, _, rfl, rfl, by decide +kernel, by decide +kernel⟩

/-! ## `VCDiffEncoder` -/

/-- C80: whatever its state, an `Encode` of a `VCDiffEncoder` that returns false writes the message that says so, and no other writes one of these. -/
theorem simple_encoder_reports (s s' : SimpleEncoder) (target : Bytes) (b : Bool) (out : Bytes) (h : s.encode target = .ok (b, out, s')) :
    (∃ m ∈ s.encodeLog target, m.refusal = true) ↔ b = false := by
  unfold SimpleEncoder.encode at h
  unfold SimpleEncoder.encodeLog
  cases hs : s.streaming with
  | error f => simp [hs] at h
  | ok o =>
    cases o with
    | none =>
      simp only [hs, Except.ok.injEq, Prod.mk.injEq] at h
      simp [← h.1, EncoderMessage.refusal]
    | some e =>
      simp only [hs] at h ⊢
      cases h1 : e.call .start with
      | error f => simp [h1] at h
      | ok p =>
        obtain ⟨r1, e1⟩ := p
        have k1 := Encoder.callLog_refusal h1
        simp only [h1] at h ⊢
        cases g1 : r1.ret
        · simp only [g1, if_true, Except.ok.injEq, Prod.mk.injEq] at h ⊢
          simp only [List.append_nil, k1, g1, ← h.1]
        · simp only [g1, Bool.true_eq_false, if_false] at h ⊢
          cases h2 : e1.call (.chunk target) with
          | error f => simp [h2] at h
          | ok p =>
            obtain ⟨r2, e2⟩ := p
            have k2 := Encoder.callLog_refusal h2
            simp only [h2] at h ⊢
            cases g2 : r2.ret
            · simp only [g2, if_true, Except.ok.injEq, Prod.mk.injEq] at h ⊢
              simp only [List.append_nil, List.mem_append, or_and_right, exists_or, k1, k2, g1, g2, ← h.1, Bool.true_eq_false, false_or]
            · simp only [g2, Bool.true_eq_false, if_false] at h ⊢
              cases h3 : e2.call .finish with
              | error f => simp [h3] at h
              | ok p =>
                obtain ⟨r3, e3⟩ := p
                have k3 := Encoder.callLog_refusal h3
                simp only [h3, Except.ok.injEq, Prod.mk.injEq] at h
                simp only [List.mem_append, or_and_right, exists_or, k1, k2, k3, g1, g2, ← h.1, Bool.true_eq_false, false_or]

/-- The hypotheses are met by an encoder that refuses: a JSON encoding of a character that is not ASCII. -/
example : ((({ dictionary := [0x61], flags := 4 } : SimpleEncoder).encode [0xFF]).map fun r => r.1) = .ok false ∧
    ({ dictionary := [0x61], flags := 4 } : SimpleEncoder).encodeLog [0xFF] = [.jsonDictionary, .jsonTarget, .chunkInvalid] :=
  ⟨rfl, by decide +kernel⟩

/-- C81 for the binary formats: a new `VCDiffEncoder` encodes without writing anything. -/
theorem simple_encoder_silent (dict : Bytes) (flags : Nat) (hb : flags &&& 4 = 0) (matching : Bool) (target : Bytes)
    (hl : dict.length + target.length < 2 ^ 31) (ht : target.length + 64 < 2 ^ 31) :
    (∃ out s', ({ dictionary := dict, flags, lookForTargetMatches := matching } : SimpleEncoder).encode target = .ok (true, out, s')) ∧
    ({ dictionary := dict, flags, lookForTargetMatches := matching } : SimpleEncoder).encodeLog target = [] := by
  obtain ⟨engine, hashed, h1, h2, _⟩ := Engine.init_ok (dict := dict) (by simp only [int32Max]; omega)
  have hd : engine.dictionary = dict := by rw [h2]
  obtain ⟨m, u⟩ := Encoder.usable
  have hsm : Encoder.Small dict target := ⟨hl, ht⟩
  refine ⟨?_, ?_⟩
  · obtain ⟨e, k, _⟩ := SimpleEncoder.encode_ok (x := { dictionary := dict, flags, lookForTargetMatches := matching }) hb u h1 hd rfl
      (Or.inl ⟨rfl, rfl, rfl⟩) hsm
    exact ⟨_, _, k⟩
  · have s2 : Encoder.Inv (Encoder.new engine flags matching) m (Encoder.new engine flags matching) := Encoder.new_inv hb m
    obtain ⟨e1, k1, k2, k3⟩ := Encoder.start_ok u s2
    obtain ⟨e2, j1, j2, j3⟩ := Encoder.chunk_ok u h1 hd k2 k3 hsm
    obtain ⟨e3, i1, i2, i3⟩ := Encoder.finish_ok j2
    have l1 := (Encoder.callLog_binary u h1 hd s2 (c := .start) (by simp) k1).2 rfl
    have l2 := (Encoder.callLog_binary u h1 hd k2 (c := .chunk target) (by rintro d ⟨⟩; exact hsm) j1).2 rfl
    have l3 := (Encoder.callLog_binary u h1 hd j2 (c := .finish) (by simp) i1).2 (by simp [j3])
    simp only [SimpleEncoder.encodeLog, SimpleEncoder.streaming, h1, k1, l1, j1, l2, l3, List.append_nil, Bool.true_eq_false, if_false]

end Vcd.Props
