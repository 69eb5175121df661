import Verif.Proof.Exceptions
import Verif.Proof.ExceptionsEncoder
import Verif.Props.Reuse
import Verif.Props.SimpleDecoder

/-!
# C78, C79: exceptions

The library catches no exceptions: one that the output string throws, or an allocation, passes through to the caller.
`d.chunkThrow data k` is the decoder after a call of `DecodeChunk` in which operation number `k` on the output string throws, and
`appendedBefore (d.chunkOps data) k part` is what that call has appended by then, if the string has also taken `part` bytes of what it
was just given. `e.ChunkThrows data out e'` says that an exception can pass through `EncodeChunk` that leaves the encoder as `e'` when
`out` has been appended (`Verif.Model.Exceptions`).
-/

namespace Vcd
open Spec

theorem appendedBefore_prefix (ops : List OutOp) (k part : Nat) : appendedBefore ops k part <+: appendedBy ops := by
  induction ops generalizing k with
  | nil => simp [appendedBefore, appendedBy]
  | cons o ops ih =>
    cases k with
    | zero =>
      cases o with
      | reserve n => simp [appendedBefore]
      | append bytes =>
        simp only [appendedBefore, appendedBy, List.take_zero, List.flatMap_nil, List.nil_append, List.getElem?_cons_zero, List.flatMap_cons]
        exact (List.take_prefix _ _).trans (List.prefix_append ..)
    | succ k =>
      have := ih k
      cases o with
      | reserve n => simpa [appendedBefore, appendedBy] using this
      | append bytes =>
        have e1 : appendedBefore (.append bytes :: ops) (k + 1) part = bytes ++ appendedBefore ops k part := by
          simp [appendedBefore]
        have e2 : appendedBy (.append bytes :: ops) = bytes ++ appendedBy ops := by simp [appendedBy]
        rw [e1, e2]
        exact List.prefix_append_right_inj _ |>.2 this

theorem chunkOps_text {d d1 : Decoder} (hd : DecInv d) {data : Bytes} {r : DecoderReply} (hc : d.call (.chunk data) = .ok (r, d1)) :
    appendedBy (d.chunkOps data) = r.out := by
  have h : d.calls [.chunk data] = .ok ([r], d1) := by simp only [Decoder.calls, hc]
  have := events_text hd h
  have e : d.events [.chunk data] = d.chunkEvents data := by
    simp [Decoder.events, hc]
  rw [e] at this
  have h2 : appendedBy (d.chunkOps data) = textOf (d.chunkEvents data) := rfl
  rw [h2, this]
  simp

/-- Whatever the members are, a failed `DecodeChunk` ends the decode. -/
theorem chunk_error_stopped (L : Level) (ns : List Level) (data : Bytes) {L' : Level} {o : Bytes} (h : chunkRun L ns data = .error L' o) :
    L'.started = false := by
  have hw : ∀ (L : Level) s, decodeChunkWindows L s = .error L' o → L'.started = false := by
    intro L s h
    unfold decodeChunkWindows endChunk at h
    split at h
    · cases h
    · cases h; rfl
    · cases h
  rw [chunkRun_eq] at h
  unfold chunkStep at h
  have ht : ∀ (L : Level) ns s, tableStep chunkRun L ns s = .error L' o → L'.started = false := by
    intro L ns s h
    unfold tableStep at h
    split at h
    · exact hw _ _ h
    · split at h
      · cases h
      · cases h; rfl
      · unfold afterCodeTableChunk endChunk at h
        dsimp only at h
        split at h
        · cases h
        · split at h
          · cases h; rfl
          · split at h
            · split at h
              · cases h
              · exact hw _ _ h
            · cases h; rfl
  split at h
  · cases h; rfl
  · split at h
    · exact ht _ _ _ h
    · split at h
      · cases h; rfl
      · cases h
      · exact ht _ _ _ h

/-- Whatever the members are, no decode is going on when `Decode` has returned. -/
theorem decodeTo_stopped {d d1 : Decoder} {dict delta : Bytes} {r : Bool × Bytes} (h : d.decodeTo dict delta = .ok (r, d1)) :
    d1.top.started = false := by
  unfold Decoder.decodeTo at h
  split at h
  · cases h
  · rename_i q d2 hc
    split at h
    · rename_i hq
      simp only [Except.ok.injEq, Prod.mk.injEq] at h
      rw [← h.2]
      simp only [Decoder.call, decodeChunk_eq] at hc
      split at hc
      · cases hc; simp at hq
      · rename_i L o hx
        cases hc
        exact chunk_error_stopped _ _ _ hx
      · cases hc
    · simp only [Except.ok.injEq, Prod.mk.injEq] at h
      rw [← h.2]
      rfl

namespace Props
open Vcd Vcd.Spec

/-! ## C78 -/

/-- C78, decoder: an exception can come from any operation on the output string and from no others, and what has been appended by then
is a prefix of what the call would have appended; for every history of calls. -/
theorem decoder_exception_prefix (history : List DecoderCall) (rs : List DecoderReply) (d : Decoder)
    (h : ({} : Decoder).calls history = .ok (rs, d)) (data : Bytes) (r : DecoderReply) (d1 : Decoder)
    (hc : d.call (.chunk data) = .ok (r, d1)) (k part : Nat) :
    ((d.chunkThrow data k).isSome = true ↔ k < (d.chunkOps data).length) ∧ appendedBefore (d.chunkOps data) k part <+: r.out := by
  have hd : DecInv d := DecInv.new.calls h
  exact ⟨(Decoder.chunkThrow_spec hd data k).1, (chunkOps_text hd hc) ▸ appendedBefore_prefix _ k part⟩

/-- C78, decoder: if a delta decodes to `T`, and an exception interrupts the decoder while it is fed the delta in whatever chunks, then what
has been output by then is a prefix of `T`. -/
theorem interrupted_decode_outputs_prefix (s : Settings) (dict T : Bytes) (full : List Bytes) (h : (configured s).decode dict full = some T)
    (cs : List Bytes) (data : Bytes) (hcs : (cs ++ [data]).flatten <+: full.flatten) :
    ∃ rs d, (configured s).calls (.start dict :: cs.map .chunk) = .ok (rs, d) ∧
      ∀ k part, allOut rs ++ appendedBefore (d.chunkOps data) k part <+: T := by
  obtain ⟨rs, d', h1, h2⟩ := prefix_outputs_prefix (configured s) rfl dict T full h (cs ++ [data]) hcs
  have e : DecoderCall.start dict :: (cs ++ [data]).map .chunk = (.start dict :: cs.map .chunk) ++ [.chunk data] := by simp
  rw [e] at h1
  obtain ⟨rs1, d, rs2, k1, k2, k3⟩ := calls_append h1
  have h0 : DecInv (configured s) := by intro hx; simp [configured] at hx
  have hd : DecInv d := h0.calls k1
  refine ⟨rs1, d, k1, fun k part => ?_⟩
  cases hc : d.call (.chunk data) with
  | error f => simp [Decoder.calls, hc] at k2
  | ok q =>
    obtain ⟨r, d1⟩ := q
    simp only [Decoder.calls, hc, Except.ok.injEq, Prod.mk.injEq] at k2
    rw [k3, ← k2.1] at h2
    have := appendedBefore_prefix (d.chunkOps data) k part
    rw [chunkOps_text hd hc] at this
    refine List.IsPrefix.trans ?_ h2
    simp only [allOut, List.map_append, List.flatten_append, List.map_cons, List.map_nil, List.flatten_cons, List.flatten_nil,
      List.append_nil]
    exact List.prefix_append_right_inj _ |>.2 this

/-- C78, decoder: after an exception, `FinishDecoding` and then `StartDecoding` begin a new decode: whatever is called next is answered as if
the call that was interrupted had returned. -/
theorem restart_after_exception (history : List DecoderCall) (rs : List DecoderReply) (d : Decoder)
    (h : ({} : Decoder).calls history = .ok (rs, d)) (data : Bytes) (r : DecoderReply) (d1 d' : Decoder) (k : Nat)
    (hc : d.call (.chunk data) = .ok (r, d1)) (ht : d.chunkThrow data k = some d') (dict : Bytes) (more : List DecoderCall) :
    d'.finish.2.replies (.start dict :: more) = d1.finish.2.replies (.start dict :: more) := by
  obtain ⟨_, _, h3⟩ := (Decoder.chunkThrow_spec (DecInv.new.calls h) data k).2 d' ht
  obtain ⟨h4, h5⟩ := h3 r d1 hc
  rw [replies_leftWith (d := d'.finish.2) rfl, replies_leftWith (d := d1.finish.2) rfl]
  have e1 : d'.finish.2.settings = d1.finish.2.settings := h4
  have e2 : d'.finish.2.top.table = d1.finish.2.top.table := h5
  rw [e1, e2]

/-- C78, decoder: whatever an exception, from wherever it comes, has left in the members of a decoder, after `FinishDecoding` and
`StartDecoding` they do not matter, but for the limits that have been set, and the code table. -/
theorem restart_from_any_state (d : Decoder) (dict : Bytes) (more : List DecoderCall) :
    d.finish.2.replies (.start dict :: more) =
      (leftWith ⟨d.top.maxFile, d.top.maxWin, d.top.allowTarget⟩ d.top.table).replies (.start dict :: more) :=
  replies_leftWith (d := d.finish.2) rfl dict more

/-- C78, encoder: what an exception in `EncodeChunk` leaves in the output string is a prefix of what the call would have appended. -/
theorem encoder_exception_prefix (e e' e1 : Encoder) (data out : Bytes) (r : EncoderReply) (ht : e.ChunkThrows data out e')
    (hc : e.call (.chunk data) = .ok (r, e1)) : r.ret = true ∧ out <+: r.out := by
  simp only [Encoder.call] at hc
  cases hx : e.chunk data with
  | error f => simp [hx, Except.map] at hc
  | ok p =>
    obtain ⟨ret, full, e2⟩ := p
    simp only [hx, Except.map, Except.ok.injEq, Prod.mk.injEq] at hc
    rw [← hc.1]
    exact ht.prefix hx

/-- C78, encoder: if the output string throws while a target is being encoded, and whatever has reached it is given to a decoder, in any
chunks, then the decoder outputs a prefix of the target. -/
theorem interrupted_encode_is_prefix (dict : Bytes) (hdict : dict.length < 2 ^ 31) (flags : Nat) (hb : flags &&& 4 = 0) (matching : Bool)
    (chunks : List Bytes) (data : Bytes)
    (hs : ∀ c ∈ chunks ++ [data], dict.length + c.length < 2 ^ 31 ∧ c.length + 64 < 2 ^ 31)
    (s : Settings) (hwin : ∀ c ∈ chunks ++ [data], c.length ≤ s.maxWindow) (hfile : (chunks ++ [data]).flatten.length ≤ s.maxFile)
    (engine : Engine) (he : Engine.init dict = .ok (some engine)) (rs : List EncoderReply) (e e' : Encoder)
    (hrs : (Encoder.new engine flags matching).calls (.start :: chunks.map .chunk) = .ok (rs, e)) (out : Bytes)
    (ht : e.ChunkThrows data out e') (cs : List Bytes) (hcs : cs.flatten = (rs.map EncoderReply.out).flatten ++ out) :
    ∃ rs' d', (configured s).calls (.start dict :: cs.map .chunk) = .ok (rs', d') ∧ allOut rs' <+: (chunks ++ [data]).flatten := by
  obtain ⟨delta, h1, h2⟩ := round_trip dict hdict flags hb matching (chunks ++ [data]) hs s hwin hfile
  obtain ⟨engine', window, i1, i2, _, _⟩ := encoder_protocol dict hdict flags hb matching
  rw [he] at i1
  injection i1 with i1
  injection i1 with i1
  subst i1
  have hcat : ∀ (a b : List EncoderCall) (x : Encoder), x.calls (a ++ b) = (match x.calls a with
      | .error f => .error f
      | .ok (ra, x1) => (x1.calls b).map fun p => (ra ++ p.1, p.2)) := by
    intro a
    induction a with
    | nil => intro b x; simp only [List.nil_append, Encoder.calls]; cases x.calls b <;> rfl
    | cons c a ih =>
      intro b x
      simp only [List.cons_append, Encoder.calls]
      cases x.call c with
      | error f => rfl
      | ok p =>
        simp only [ih b p.2]
        cases p.2.calls a with
        | error f => rfl
        | ok q => simp only; cases q.2.calls b <;> rfl
  obtain ⟨e3, k⟩ := i2 ([.start] ++ (chunks ++ [data]).map .chunk ++ [.finish]) (by
    intro c hm
    simp only [List.mem_append, List.mem_singleton, List.mem_map, reduceCtorEq, false_or, or_false] at hm
    obtain ⟨c', hc', e⟩ := hm
    cases e
    exact hs c (by simpa using hc'))
  have hdelta : ∃ r e2 tail, e.call (.chunk data) = .ok (r, e2) ∧ delta = (rs.map EncoderReply.out).flatten ++ r.out ++ tail := by
    unfold encode at h1
    simp only [he] at h1
    have e0 : [EncoderCall.start] ++ (chunks ++ [data]).map .chunk ++ [.finish] =
        (.start :: chunks.map .chunk) ++ [.chunk data, .finish] := by simp
    rw [e0] at h1 k
    rw [hcat, hrs] at h1 k
    simp only [Encoder.calls] at h1 k
    cases hx : e.call (.chunk data) with
    | error f => simp [hx, Except.map] at k
    | ok p =>
      obtain ⟨r, e2⟩ := p
      simp only [hx] at h1 k
      cases hy : e2.call .finish with
      | error f => simp [hy, Except.map] at k
      | ok q =>
        obtain ⟨r2, e4⟩ := q
        simp only [hy, Except.map] at h1
        split at h1
        · simp only [Except.ok.injEq, Option.some.injEq] at h1
          refine ⟨r, e2, r2.out, rfl, ?_⟩
          rw [← h1]
          simp [List.flatMap]
        · cases h1
  obtain ⟨r, e2, tail, k1, k2⟩ := hdelta
  obtain ⟨_, k3⟩ := encoder_exception_prefix e e' e2 data out r ht k1
  refine prefix_outputs_prefix (configured s) rfl dict _ [delta] (h2 [delta] (by simp)) cs ?_
  rw [hcs, k2]
  simp only [List.flatten_cons, List.flatten_nil, List.append_nil, List.append_assoc]
  refine List.prefix_append_right_inj _ |>.2 (k3.trans (List.prefix_append ..))

/-! ## C79 -/

/-- C79, `VCDiffDecoder`: a call of `Decode` that returns leaves nothing of an exception behind, whatever state that has left. The calls after
it do what they do with a decoder that is new but for its code table (and limits, which this class cannot set). -/
theorem vcdiff_decoder_recovers_partial (d d1 : Decoder) (dict delta : Bytes) (r : Bool × Bytes) (h : d.decodeTo dict delta = .ok (r, d1))
    (dict' delta' : Bytes) : (d1.decodeTo dict' delta').map Prod.fst =
      ((leftWith ⟨d1.top.maxFile, d1.top.maxWin, d1.top.allowTarget⟩ d1.top.table).decodeTo dict' delta').map Prod.fst := by
  have hs := decodeTo_stopped h
  refine decodeTo_congr (fun hx => by rw [hs] at hx; cases hx) (DecInv.leftWith _ _) dict' delta' ?_
  exact replies_leftWith hs dict' [.chunk delta', .finish]

/-- A delta for `abc`. -/
def abcDelta : Bytes := [0xD6, 0xC3, 0xC4, 0, 0, 0, 9, 3, 0, 3, 1, 0, 97, 98, 99, 4]

/-- C79 does not hold of `VCDiffDecoder`: the target string throws while `abcDelta` is being decoded; then `Decode` with another dictionary and an
empty delta puts `abc` into its target and returns true, although there is no target for this. And `Decode` with
`abcDelta` again is refused, although a new decoder decodes it. -/
theorem vcdiff_decoder_after_exception_false : ∃ d, ({} : Decoder).decodeToThrow [] abcDelta 0 = some d ∧
    (d.decodeTo [1, 2, 3] []).toOption.map Prod.fst = some (true, [97, 98, 99]) ∧
    (d.decodeTo [] abcDelta).toOption.map Prod.fst = some (false, []) ∧
    (({} : Decoder).decodeTo [1, 2, 3] []).toOption.map Prod.fst = some (true, []) ∧
    (({} : Decoder).decodeTo [] abcDelta).toOption.map Prod.fst = some (true, [97, 98, 99]) := by
  have : (match ({} : Decoder).decodeToThrow [] abcDelta 0 with
    | none => false
    | some d => decide ((d.decodeTo [1, 2, 3] []).toOption.map Prod.fst = some (true, [97, 98, 99]) ∧
        (d.decodeTo [] abcDelta).toOption.map Prod.fst = some (false, []) ∧
        (({} : Decoder).decodeTo [1, 2, 3] []).toOption.map Prod.fst = some (true, []) ∧
        (({} : Decoder).decodeTo [] abcDelta).toOption.map Prod.fst = some (true, [97, 98, 99]))) = true := by decide +kernel
  cases hx : ({} : Decoder).decodeToThrow [] abcDelta 0 with
  | none => simp [hx] at this
  | some d =>
    simp only [hx, decide_eq_true_eq] at this
    exact ⟨d, rfl, this⟩

/-- C79, encoder: an exception in `StartEncoding` is harmless: after any history of calls, when `StartEncoding` is called again all further
calls are answered as those of an encoder to which nothing has happened. -/
theorem start_exception_harmless (dict : Bytes) (hdict : dict.length < 2 ^ 31) (flags : Nat) (hb : flags &&& 4 = 0) (matching : Bool)
    (engine : Engine) (he : Engine.init dict = .ok (some engine)) (history more : List EncoderCall)
    (hh : EachChunk (fun data => dict.length + data.length < 2 ^ 31 ∧ data.length + 64 < 2 ^ 31) history)
    (hm : EachChunk (fun data => dict.length + data.length < 2 ^ 31 ∧ data.length + 64 < 2 ^ 31) more)
    (rs : List EncoderReply) (e e' : Encoder) (hrs : (Encoder.new engine flags matching).calls history = .ok (rs, e)) (part : Bytes)
    (ht : e.StartThrows part e') :
    ∃ rs' e1 e2, (Encoder.new engine flags matching).calls (.start :: more) = .ok (rs', e1) ∧ e'.calls (.start :: more) = .ok (rs', e2) := by
  obtain ⟨m, u⟩ := Encoder.usable
  have hd : engine.dictionary = dict := by
    obtain ⟨x, hashed, h1, rfl, _⟩ := Engine.init_ok (dict := dict) (by simp only [int32Max]; omega)
    rw [he] at h1; injection h1 with h1; injection h1 with h1; rw [h1]
  have h0 := Encoder.new_inv (engine := engine) (matching := matching) hb m
  obtain ⟨x, k1, k2⟩ := Encoder.calls_ok u he hd h0 hh
  rw [hrs] at k1
  cases k1
  obtain ⟨a1, a2, a3, a4⟩ := ht.start u k2
  obtain ⟨b1, b2, b3, b4⟩ := Encoder.start_ok u h0
  obtain ⟨a5, a6, _⟩ := Encoder.calls_ok u he hd a3 hm
  obtain ⟨b5, b6, _⟩ := Encoder.calls_ok u he hd b3 hm
  rw [a4] at a6
  rw [b4] at b6
  refine ⟨⟨true, Writer.header flags⟩ :: protocol (Writer.header flags) (Encoder.window (Encoder.new engine flags matching) m) true more,
    b5, a5, ?_, ?_⟩
  · simp only [Encoder.calls, b2, b6]; rfl
  · simp only [Encoder.calls, a2, a6]; rfl

/-- C79, encoder: an exception in `EncodeChunk` before the first instruction is written (memory for the hash table of the target cannot be had) is
harmless: all further calls, a repetition of this one among them, are answered as if the call had not been made. -/
theorem early_exception_harmless (dict : Bytes) (hdict : dict.length < 2 ^ 31) (flags : Nat) (hb : flags &&& 4 = 0) (matching : Bool)
    (engine : Engine) (he : Engine.init dict = .ok (some engine)) (history more : List EncoderCall)
    (hh : EachChunk (fun data => dict.length + data.length < 2 ^ 31 ∧ data.length + 64 < 2 ^ 31) history)
    (hm : EachChunk (fun data => dict.length + data.length < 2 ^ 31 ∧ data.length + 64 < 2 ^ 31) more)
    (rs : List EncoderReply) (e : Encoder) (hrs : (Encoder.new engine flags matching).calls history = .ok (rs, e)) (data : Bytes)
    (w : Writer) (ha : e.allowed = true) (hw : e.coder = .binary w) :
    let e' := { e with coder := .binary (if e.flags &&& 2 ≠ 0 then w.addChecksum (computeAdler32 data) else w) }
    e.ChunkThrows data [] e' ∧ ∃ rs' e1 e2, e.calls more = .ok (rs', e1) ∧ e'.calls more = .ok (rs', e2) := by
  obtain ⟨m, u⟩ := Encoder.usable
  have hd : engine.dictionary = dict := by
    obtain ⟨x, hashed, h1, rfl, _⟩ := Engine.init_ok (dict := dict) (by simp only [int32Max]; omega)
    rw [he] at h1; injection h1 with h1; injection h1 with h1; rw [h1]
  obtain ⟨x, k1, k2⟩ := Encoder.calls_ok u he hd (Encoder.new_inv (engine := engine) (matching := matching) hb m) hh
  rw [hrs] at k1
  cases k1
  obtain ⟨e1, i1, _⟩ := Encoder.calls_ok u he hd k2 hm
  obtain ⟨e2, i2, _⟩ := Encoder.calls_ok u he hd (Encoder.early_inv k2 ha hw data) hm
  exact ⟨.early ha hw, _, e1, e2, i1, i2⟩

/-- C79, encoder, JSON: after an exception in `EncodeChunk`, from wherever it comes, and a new `StartEncoding`, everything is as if the call had
not been made, or as if it had returned. -/
theorem json_restart_after_exception (e e' : Encoder) (w : JsonWriter) (hj : e.coder = .json w) (data out : Bytes)
    (ht : e.ChunkThrows data out e') (hlen : e.engine.dictionary.length + data.length < 2 ^ 31)
    (he : Engine.init e.engine.dictionary = .ok (some e.engine)) (more : List EncoderCall) :
    e'.calls (.start :: more) = e.calls (.start :: more) ∨
    ∃ r e1, e.call (.chunk data) = .ok (r, e1) ∧ e'.calls (.start :: more) = e1.calls (.start :: more) := by
  have same : ∀ (a b : Encoder) (wa wb : JsonWriter), a.coder = .json wa → b.coder = .json wb → a.engine = b.engine → a.flags = b.flags →
      a.lookForTargetMatches = b.lookForTargetMatches → a.allowed = b.allowed → wa.init = wb.init →
      a.calls (.start :: more) = b.calls (.start :: more) := by
    rintro ⟨a1, a2, a3, a4, a5⟩ ⟨b1, b2, b3, b4, b5⟩ wa wb h1 h2 h3 h4 h5 h6 h7
    simp only at h1 h2 h3 h4 h5 h6
    subst h1 h2 h3 h4 h5 h6
    simp only [Encoder.calls, Encoder.call, Encoder.start, h7]
  cases ht with
  | early _ hw => rw [hj] at hw; cases hw
  | writer _ hw => rw [hj] at hw; cases hw
  | earlyJson => exact .inl rfl
  | @json w' w'' calls _ ha hw hasc hc ht =>
    rw [hj] at hw
    cases hw
    by_cases hne : data = []
    · subst hne
      obtain ⟨x, hashed, h1, h2, _⟩ := Engine.init_ok (dict := e.engine.dictionary) (by simp only [int32Max]; omega)
      rw [he] at h1
      injection h1 with h1
      injection h1 with h1
      have : e.engine.encode e.lookForTargetMatches [] = .ok [] := by rw [h1, h2]; rfl
      rw [this] at hc
      cases hc
      cases ht
    · obtain ⟨en, ops, i1, _, i3, _⟩ := Engine.encode_whole (dict := e.engine.dictionary) (target := data) (matching := e.lookForTargetMatches)
        (by simp only [int32Max]; omega) hne
      rw [he] at i1
      injection i1 with i1
      injection i1 with i1
      rw [← i1, hc] at i3
      cases i3
      rcases ht.init with h | h
      · exact .inl (same _ _ w'' w rfl hj rfl rfl rfl rfl h)
      · refine .inr ⟨⟨true, (w.calls (ops.map Op.call ++ [.output])).1⟩,
          { e with coder := .json (w.calls (ops.map Op.call ++ [.output])).2 }, ?_, same _ _ w'' _ rfl rfl rfl rfl rfl rfl h⟩
        simp only [Encoder.call, Encoder.chunk, ha, hj, hasc, hc, Except.map, Bool.not_true, Bool.false_eq_true, if_false]

/-- C79 does not hold of encoders: if the output string throws when the window of a chunk `A` is about to be appended to it, and the caller
then passes a chunk `B` (`A` again, say), the call returns true, and the delta decodes to `A ++ B` (not to `B`). This is so for all
dictionaries and all `A` and `B`, in the binary formats without checksums, without target matching. -/
theorem retried_chunk_is_duplicated (dict : Bytes) (flags : Nat) (hb : flags &&& 4 = 0) (hf : flags &&& 2 = 0) (A B : Bytes)
    (hA : A ≠ []) (hB : B ≠ []) (hs1 : dict.length + A.length + B.length < 2 ^ 31) (hs2 : A.length + B.length + 70 < 2 ^ 31) :
    ∃ engine e e' e2 window, Engine.init dict = .ok (some engine) ∧
      (Encoder.new engine flags false).call .start = .ok (⟨true, Writer.header flags⟩, e) ∧ e.ChunkThrows A [] e' ∧
      e'.call (.chunk B) = .ok (⟨true, window⟩, e2) ∧
      ∀ (s : Settings), (A ++ B).length ≤ s.maxWindow → (A ++ B).length ≤ s.maxFile →
        ∀ cs : List Bytes, cs.flatten = Writer.header flags ++ window → (configured s).decode dict cs = some (A ++ B) := by
  obtain ⟨m, u⟩ := Encoder.usable
  obtain ⟨engine, hashed, h1, h2, _⟩ := Engine.init_ok (dict := dict) (by simp only [int32Max]; omega)
  have hd : engine.dictionary = dict := by rw [h2]
  have h0 := Encoder.new_inv (engine := engine) (matching := false) hb m
  obtain ⟨e, k1, k2, k3⟩ := Encoder.start_ok u h0
  obtain ⟨e', e2, window, j1, j2, j3⟩ := Encoder.retried (e0 := Encoder.new engine flags false) u h1 hd k2 k3 rfl hf hA hB hs1 hs2
  refine ⟨engine, e, e', e2, window, h1, k1, j1, j2, fun s hw hfile cs hcs => ?_⟩
  have hwin : Windows defaultCoding (flags != 0) strict s dict [] window (A ++ B) := by
    have := Encoder.windows_of_chunks (dict := dict) (ext := flags != 0) (s := s) (window := fun x => if x = [] then [] else window)
      (chunks := [A ++ B]) (prev := []) (by simp) (by
        intro data hm hne prev hp
        simp only [List.mem_singleton] at hm
        subst hm
        rw [if_neg hne]
        exact j3 s prev hw hp) (by simpa using hfile)
    have hne : A ++ B ≠ [] := by simp [hA]
    simpa [hne] using this
  exact conforming_accepted_partial s dict _ _ (Writer.fileCode_of_windows hwin) cs hcs

/-- The default code table has one opcode for an ADD of one byte. -/
theorem add_one_opcode {m : InstructionMap} (u : Writer.Usable defaultCoding 8 m) : Writer.lookupFirst m vcdAdd 1 0 = .ok (2, false) := by
  obtain ⟨r, r1, r2, r3⟩ := lookupFirst_spec u.valid u.map ⟨vcdAdd, 1, 0⟩ (Writer.half_ok (maxMode := 8) (mode := 0) ⟨by decide, by decide, by decide, fun _ => rfl⟩ (by decide) 1).1
  have only : ∀ b : UInt8, IsSingle defaultTable b ⟨vcdAdd, 1, 0⟩ ↔ b = 2 := by
    intro b
    unfold IsSingle
    rw [default_first, default_second]
    revert b
    apply forall_byte; decide +kernel
  cases r with
  | none => exact absurd ((only 2).2 rfl) (r3 rfl 2)
  | some op =>
    have := (only op).1 (r2 op rfl).1
    subst this
    simp only [Writer.lookupFirst, if_pos (show 1 ≤ 255 by decide)]
    rw [show (⟨vcdAdd, 1, 0⟩ : Half).size.toNat = 1 from rfl, show (⟨vcdAdd, 1, 0⟩ : Half).mode.toNat = 0 from rfl] at r1
    simp only at r1
    rw [r1]

/-- A writer into which the given instructions and data have been written. -/
def writerWith (m : Option InstructionMap) (inst data : Bytes) (last : Option Nat) (n : Nat) : Writer :=
  { interleaved := false, maxMode := 8, cache := AddrCache.ofHist 4 3 [], table := defaultTable, map := m, inst := inst, data := data,
    lastOpcode := last, targetLength := n }

theorem writerWith_init (m : InstructionMap) (inst data : Bytes) (last : Option Nat) (n : Nat) :
    (writerWith (some m) inst data last n).init 0 = .ok (true, writerWith (some m) inst data none 0) := by
  have hc : (AddrCache.ofHist 4 3 []).init = some (AddrCache.ofHist 4 3 []) := by rw [AddrCache.init_ofHist, if_neg (by decide)]
  simp only [Writer.init, writerWith, hc]

theorem init_fresh {w : Writer} {m : InstructionMap} {c : AddrCache} (n : Nat) (h0 : w.map = none)
    (hm : InstructionMap.build w.table w.maxMode = some m) (hc : w.cache.init = some c) :
    w.init n = .ok (true, { w with dictionarySize := n, map := some m, cache := c, targetLength := 0, lastOpcode := none }) := by
  simp only [Writer.init, h0, hm, Option.map, hc]

theorem writerNew_init {m : InstructionMap} (u : Writer.Usable defaultCoding 8 m) :
    (Writer.new false).init 0 = .ok (true, writerWith (some m) [] [] none 0) :=
  init_fresh 0 rfl u.map (by rw [show (Writer.new false).cache = AddrCache.new 4 3 from rfl, AddrCache.init_new, if_neg (by decide)])

theorem start_fresh {e : Encoder} {w w' : Writer} (hb : e.coder = .binary w) (hi : w.init e.engine.dictionary.length = .ok (true, w')) :
    e.call .start = .ok (⟨true, Writer.header e.flags⟩, { e with coder := .binary w', allowed := true }) := by
  simp only [Encoder.call, Encoder.start, hb, hi, Except.map]

theorem calls_single {e e' : Encoder} {c : EncoderCall} {r : EncoderReply} (h : e.call c = .ok (r, e')) : e.calls [c] = .ok ([r], e') := by
  simp only [Encoder.calls, h]

theorem writerWith_add {m : InstructionMap} (u : Writer.Usable defaultCoding 8 m) (inst data : Bytes) (x : UInt8) :
    (writerWith (some m) inst data none 0).call (.add [x]) =
      .ok ([], writerWith (some m) (inst ++ [2]) (data ++ [x]) (some inst.length) 1) := by
  simp only [Writer.call, Writer.add, Writer.encodeInstruction, writerWith, Writer.compound, List.length_singleton, add_one_opcode u,
    Writer.sizeOperand, Bool.false_eq_true, if_false, Except.map, Writer.appendData, Writer.advance, List.append_nil]

theorem writerWith_window (m : Option InstructionMap) (inst data : Bytes) (last : Option Nat) (n : Nat) :
    (writerWith m inst data last n).windowBytes = (writerWith none inst data none n).windowBytes := rfl

theorem except_of_toOption {x : Except Fault Bytes} {b : Bytes} (h : x.toOption = some b) : x = .ok b := by
  cases x with
  | error f => cases h
  | ok c => cases h; rfl

/-- A new encoder for an empty dictionary, when the output string takes `part` of the window for `a` and then throws. -/
theorem interrupted_a (part : Bytes) (hp : part <+: [1, 0, 0, 7, 1, 0, 1, 1, 0, 0x61, 2]) :
    ∃ engine m, Writer.Usable defaultCoding 8 m ∧ Engine.init [] = .ok (some engine) ∧ engine.dictionary.length = 0 ∧
      (∀ x : UInt8, engine.encode false [x] = .ok [.add [x], .output]) ∧
      (Encoder.new engine 0 false).call .start =
        .ok (⟨true, Writer.header 0⟩, ⟨engine, .binary (writerWith (some m) [] [] none 0), 0, false, true⟩) ∧
      (⟨engine, .binary (writerWith (some m) [] [] none 0), 0, false, true⟩ : Encoder).ChunkThrows [0x61] part
        ⟨engine, .binary (writerWith (some m) [2] [0x61] (some 0) 1), 0, false, true⟩ := by
  obtain ⟨m, u⟩ := Encoder.usable
  obtain ⟨engine, hashed, h1, h2, _⟩ := Engine.init_ok (dict := []) (by decide)
  have henc : ∀ x : UInt8, engine.encode false [x] = .ok [.add [x], .output] := by
    intro x
    rw [h2]
    rfl
  have hd : engine.dictionary.length = 0 := by rw [h2]; rfl
  have i0 := writerNew_init u
  have wb1 := except_of_toOption (x := (writerWith none [2] [0x61] none 1).windowBytes) (b := [1, 0, 0, 7, 1, 0, 1, 1, 0, 0x61, 2])
    (by decide +kernel)
  have c1 : (writerWith (some m) [] [] none 0).call (.add [0x61]) = .ok ([], writerWith (some m) [2] [0x61] (some 0) 1) :=
    writerWith_add u [] [] 0x61
  refine ⟨engine, m, u, h1, hd, henc, ?_, ?_⟩
  · exact start_fresh (e := Encoder.new engine 0 false) (w := Writer.new false) rfl
      ((congrArg (Writer.new false).init (show (Encoder.new engine 0 false).engine.dictionary.length = 0 from hd)).trans i0)
  · rw [show part = [] ++ part from rfl]
    refine .writer (calls := [.add [0x61], .output]) rfl rfl (henc _) ?_
    rw [if_neg (show ¬ ((0 : Nat) &&& 2 ≠ 0) by decide)]
    refine .later (out := []) c1 ?_
    refine .output (ps := [_]) rfl (List.mem_singleton.2 rfl) (window := [1, 0, 0, 7, 1, 0, 1, 1, 0, 0x61, 2]) ?_ hp
    rw [if_neg (show ¬ (writerWith (some m) [2] [0x61] (some 0) 1).inst = [] from List.cons_ne_nil _ _)]
    exact (writerWith_window _ _ _ _ _).trans wb1

/-- C79 does not hold of encoders, even if they are started again: an exception interrupts a first encode when the window for `a` is about to be appended
to the output string; the encode of `b` that follows, with all calls returning true, is not a delta that can be decoded. `VCDiffEncoder`
makes the same calls, so the same is true of a `VCDiffEncoder` whose `Encode` was interrupted. -/
theorem restarted_encode_is_broken : ∃ engine e e' e2 window, Engine.init [] = .ok (some engine) ∧
    (Encoder.new engine 0 false).call .start = .ok (⟨true, Writer.header 0⟩, e) ∧ e.ChunkThrows [0x61] [] e' ∧
    e'.calls [.start, .chunk [0x62], .finish] = .ok ([⟨true, Writer.header 0⟩, ⟨true, window⟩, ⟨true, []⟩], e2) ∧
    ({} : Decoder).decode [] [Writer.header 0 ++ window] = none := by
  obtain ⟨engine, m, u, h1, hd, henc, hstart, hthrow⟩ := interrupted_a [] List.nil_prefix
  have wb3 := except_of_toOption (x := (writerWith none [2, 2] [0x61, 0x62] none 1).windowBytes)
    (b := [1, 0, 0, 9, 1, 0, 2, 2, 0, 0x61, 0x62, 2, 2]) (by decide +kernel)
  have c3 := writerWith_add u [2] [0x61] 0x62
  have c4 : (writerWith (some m) [2, 2] [0x61, 0x62] (some 1) 1).call .output =
      .ok ([1, 0, 0, 9, 1, 0, 2, 2, 0, 0x61, 0x62, 2, 2], writerWith (some m) [] [] none 0) := by
    have hi := writerWith_init m [] [] (some 1) 1
    simp only [Writer.call, Writer.output, writerWith_window, wb3,
      if_neg (show ¬ (writerWith (some m) [2, 2] [0x61, 0x62] (some 1) 1).inst = [] from List.cons_ne_nil _ _)]
    rw [show ({ writerWith (some m) [2, 2] [0x61, 0x62] (some 1) 1 with data := [], inst := [], addr := [] } : Writer) =
      writerWith (some m) [] [] (some 1) 1 from rfl,
      show (writerWith (some m) [2, 2] [0x61, 0x62] (some 1) 1).dictionarySize = 0 from rfl, hi]
  refine ⟨engine, ⟨engine, .binary (writerWith (some m) [] [] none 0), 0, false, true⟩,
    ⟨engine, .binary (writerWith (some m) [2] [0x61] (some 0) 1), 0, false, true⟩,
    ⟨engine, .binary (writerWith (some m) [] [] none 0), 0, false, false⟩, [1, 0, 0, 9, 1, 0, 2, 2, 0, 0x61, 0x62, 2, 2], h1,
    hstart, hthrow, ?_, ?_⟩
  · have hi := writerWith_init m [2] [0x61] (some 0) 1
    have hs : (⟨engine, .binary (writerWith (some m) [2] [0x61] (some 0) 1), 0, false, true⟩ : Encoder).call .start =
        .ok (⟨true, Writer.header 0⟩, ⟨engine, .binary (writerWith (some m) [2] [0x61] none 0), 0, false, true⟩) := by
      simp only [Encoder.call, Encoder.start, hd, hi, Except.map]
    have hc : (⟨engine, .binary (writerWith (some m) [2] [0x61] none 0), 0, false, true⟩ : Encoder).call (.chunk [0x62]) =
        .ok (⟨true, [1, 0, 0, 9, 1, 0, 2, 2, 0, 0x61, 0x62, 2, 2]⟩,
          ⟨engine, .binary (writerWith (some m) [] [] none 0), 0, false, true⟩) := by
      have c3' : (writerWith (some m) [2] [0x61] none 0).call (.add [0x62]) =
          .ok ([], writerWith (some m) [2, 2] [0x61, 0x62] (some 1) 1) := c3
      simp only [Encoder.call, Encoder.chunk, henc, Writer.calls, Bool.not_true, Bool.false_eq_true, if_false,
        if_neg (show ¬ ((0 : Nat) &&& 2 ≠ 0) by decide), c3', c4, Except.map, List.nil_append, List.append_nil]
    simp only [Encoder.calls, hs, hc]
    rfl
  · decide +kernel

/-! ## The hypotheses can be met -/

/-- Two windows, each for `abc`. -/
def twice : Bytes := abcDelta ++ abcDelta.drop 5

/-- The decoder, with `VCD_TARGET` not allowed, makes two appends for `twice`; an exception can come from each. After the second the first three
bytes have been output, and two of the next three if the string has taken these; what would have been output is `abcabc`. The decode of
`abcDelta` that is then started succeeds, as it does if there was no exception. -/
example :
    let d := ((configured { allowTarget := false }).start [])
    (d.chunkOps twice).length = 2 ∧ (d.chunkThrow twice 0).isSome = true ∧ (d.chunkThrow twice 1).isSome = true ∧
    (d.chunkThrow twice 2).isSome = false ∧
    appendedBefore (d.chunkOps twice) 1 2 = [97, 98, 99, 97, 98] ∧
    (d.call (.chunk twice)).toOption.map Prod.fst = some ⟨true, [97, 98, 99, 97, 98, 99]⟩ ∧
    (d.chunkThrow twice 1).map (fun d' => (d'.finish.2.replies [.start [], .chunk abcDelta, .finish]).toOption) =
      some (some [⟨true, []⟩, ⟨true, [97, 98, 99]⟩, ⟨true, []⟩]) ∧
    (configured { allowTarget := false }).decode [] [twice] = some [97, 98, 99, 97, 98, 99] := by
  decide +kernel

/-- The history that leads to that decoder. -/
example : (({} : Decoder).calls [.setAllowTarget false, .start []]).toOption.map (fun p => p.2.top.started && !p.2.top.allowTarget) = some true := by
  decide +kernel

/-- An exception in `EncodeChunk`, when the string has taken five bytes of the window. -/
example : ∃ engine rs e e', Engine.init [] = .ok (some engine) ∧
    (Encoder.new engine 0 false).calls (.start :: ([] : List Bytes).map .chunk) = .ok (rs, e) ∧ e.ChunkThrows [0x61] [1, 0, 0, 7, 1] e' := by
  obtain ⟨engine, m, _, h1, _, _, h2, h3⟩ := interrupted_a [1, 0, 0, 7, 1] (by decide)
  exact ⟨engine, _, _, _, h1, calls_single h2, h3⟩

/-- The other hypotheses of `interrupted_encode_is_prefix` and of `retried_chunk_is_duplicated`. -/
example : (∀ c ∈ ([] : List Bytes) ++ [[0x61]], ([] : Bytes).length + c.length < 2 ^ 31 ∧ c.length + 64 < 2 ^ 31) ∧
    (∀ c ∈ ([] : List Bytes) ++ [[0x61]], c.length ≤ ({} : Settings).maxWindow) ∧
    (([] : List Bytes) ++ [[0x61]]).flatten.length ≤ ({} : Settings).maxFile ∧ (1 : Nat) &&& 4 = 0 ∧ (1 : Nat) &&& 2 = 0 := by
  decide

/-- An exception in `StartEncoding`, when the string has taken three bytes of the header, and one in `EncodeChunk` before the first instruction. -/
example : ∃ engine e e1, Engine.init [] = .ok (some engine) ∧ (Encoder.new engine 0 false).StartThrows [0xD6, 0xC3, 0xC4] e ∧
    (Encoder.new engine 0 false).calls [.start] = .ok ([⟨true, Writer.header 0⟩], e1) ∧ e1.allowed = true ∧ ∃ w, e1.coder = .binary w := by
  obtain ⟨engine, m, u, h1, hd, _, h2, _⟩ := interrupted_a [] List.nil_prefix
  have i0 := writerNew_init u
  refine ⟨engine, _, _, h1, .header (w := Writer.new false) (w' := writerWith (some m) [] [] none 0) rfl ?_
      (show [0xD6, 0xC3, 0xC4] <+: Writer.header 0 by decide),
    calls_single h2, rfl, _, rfl⟩
  show (Writer.new false).init engine.dictionary.length = _
  rw [hd]
  exact i0

/-- An exception in `EncodeChunk` with the JSON format, when half of an instruction is in the string of the writer, and what follows it. -/
example : ∃ (e e' : Encoder) (w : JsonWriter), e.coder = .json w ∧ e.ChunkThrows [0x61] [] e' ∧ Engine.init e.engine.dictionary = .ok (some e.engine) ∧
    (e'.calls [.start, .chunk [0x62], .finish]).toOption.map Prod.fst = some [⟨true, []⟩, ⟨true, [0x5B, 0x22, 0x62, 0x22]⟩, ⟨true, [0x5D]⟩] := by
  obtain ⟨engine, m, u, h1, hd, henc, h2, _⟩ := interrupted_a [] List.nil_prefix
  have hnil : engine.dictionary = [] := List.eq_nil_of_length_eq_zero hd
  refine ⟨⟨engine, .json { output := [0x5B] }, 4, false, true⟩, ⟨engine, .json { output := [0x5B, 0x22] }, 4, false, true⟩, _, rfl,
    .json (w := { output := [0x5B] }) rfl rfl (by decide) (henc _) ?_, by rw [hnil]; exact h1, ?_⟩
  · exact .here (w := { output := [0x5B] }) (text := [0x22]) (by simp) (by decide)
  · have hs : (⟨engine, .json { output := [0x5B, 0x22] }, 4, false, true⟩ : Encoder).call .start =
        .ok (⟨true, []⟩, ⟨engine, .json { output := [0x5B] }, 4, false, true⟩) := by
      simp only [Encoder.call, Encoder.start, hnil, if_pos (show JsonWriter.isAscii [] = true from rfl), Except.map, JsonWriter.init]
    have hc : (⟨engine, .json { output := [0x5B] }, 4, false, true⟩ : Encoder).call (.chunk [0x62]) =
        .ok (⟨true, [0x5B, 0x22, 0x62, 0x22]⟩, ⟨engine, .json { outputCalled := true, opcodeAdded := true }, 4, false, true⟩) := by
      have : (!JsonWriter.isAscii [0x62]) = false := by decide
      simp only [Encoder.call, Encoder.chunk, henc, this, Bool.not_true, Bool.false_eq_true, if_false, Except.map]
      rfl
    simp only [Encoder.calls, hs, hc]
    rfl

end Props
end Vcd
