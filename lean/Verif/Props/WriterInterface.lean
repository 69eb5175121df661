import Verif.Proof.WriterInterface
import Verif.Props.Custom

/-!
# C56: encoders with a writer of the caller
-/

namespace Vcd
open Spec

/-- The chunks of one encode, with a code table writer for the coding `c`. -/
theorem StreamEncoder.chunks_ok {c : Coding} {m : InstructionMap} (u : Writer.Usable c (c.near + c.same + 1) m)
    {s : Settings} {dict : Bytes} {flags : Nat} {matching : Bool} {engine : Engine} (he : Engine.init dict = .ok (some engine))
    (chunks : List Bytes) : ∀ {w : Writer} {prev : Bytes}, Writer.Ready c (c.near + c.same + 1) m dict.length w →
    (flags &&& 2 = 0 → w.checksum = none) → (w.interleaved = true → flags ≠ 0) →
    (∀ data ∈ chunks, dict.length + data.length < 2 ^ 31 ∧ data.length + 64 < 2 ^ 31 ∧ data.length ≤ s.maxWindow) →
    prev.length + chunks.flatten.length ≤ s.maxFile →
    ∃ rs ws w', (StreamEncoder.mk engine libraryWriter (.binary w) flags matching true).calls
        (chunks.map EncoderCall.chunk ++ [EncoderCall.finish]) =
          .ok (rs, StreamEncoder.mk engine libraryWriter (.binary w') flags matching false) ∧
      (∀ r ∈ rs, r.ret = true) ∧ rs.flatMap (·.out) = ws ∧ Windows c (flags != 0) strict s dict prev ws chunks.flatten := by
  induction chunks with
  | nil =>
    intro w prev _ _ _ _ _
    exact ⟨[⟨true, []⟩], [], w, rfl, by simp, rfl, .nil⟩
  | cons data chunks ih =>
    intro w prev hr hck hil hs hfile
    obtain ⟨s1, s2, s3⟩ := hs data (List.mem_cons_self ..)
    rw [List.flatten_cons, List.length_append] at hfile
    generalize hw' : (if flags &&& 2 ≠ 0 then w.addChecksum (computeAdler32 data) else w) = w'
    have hr' : Writer.Ready c (c.near + c.same + 1) m dict.length w' := by
      rw [← hw']
      split
      · exact hr.addChecksum _
      · exact hr
    have hil' : w'.interleaved = w.interleaved := by
      rw [← hw']; split <;> rfl
    have hck' : flags &&& 2 = 0 → w'.checksum = none := by
      intro h; rw [← hw', if_neg (by simp [h])]; exact hck h
    obtain ⟨rs, ws, w2, i1, i2, i3, i4⟩ := ih (w := w') (prev := prev ++ data) hr' hck' (by rw [hil']; exact hil)
      (fun d hd => hs d (List.mem_cons_of_mem _ hd)) (by rw [List.length_append]; omega)
    have hv : libraryWriter.verifyChunk (.binary w) data = .ok (true, .binary w) := rfl
    have hk : (if flags &&& 2 ≠ 0 then libraryWriter.addChecksum (.binary w) (computeAdler32 data) else .ok (.binary w)) =
        .ok (.binary w') := by
      rw [← hw']
      by_cases h2 : flags &&& 2 ≠ 0
      · rw [if_pos h2, if_pos h2]; rfl
      · rw [if_neg h2, if_neg h2]
    by_cases hne : data = []
    · subst hne
      obtain ⟨eng, hashed, e1, e2, _⟩ := Engine.init_ok (dict := dict) (by simp only [int32Max]; omega)
      rw [he] at e1
      injection e1 with e1
      injection e1 with e1
      have e3 : engine.encode matching [] = .ok [] := by rw [e1, e2]; rfl
      refine ⟨⟨true, []⟩ :: rs, ws, w2, ?_, ?_, by simpa using i3, by simpa using i4⟩
      · simp only [List.map_cons, List.cons_append, StreamEncoder.calls, StreamEncoder.call, StreamEncoder.chunk,
          Bool.not_true, Bool.false_eq_true, if_false]
        rw [hv]
        dsimp only
        rw [hk, e3]
        simp only [WriterInterface.calls]
        rw [i1]
      · intro r hm
        rcases List.mem_cons.1 hm with rfl | hm
        · rfl
        · exact i2 r hm
    · obtain ⟨eng, ops, k1, k2, k3, k4⟩ := Engine.encode_whole (dict := dict) (target := data)
        (matching := matching) (by simp only [int32Max]; omega) hne
      rw [he] at k1
      injection k1 with k1
      injection k1 with k1
      subst k1
      obtain ⟨hsens, hcost⟩ := Whole.sensible k4
      have hnil : ops ≠ [] := by
        rintro rfl
        have := k4.exec
        simp [execOps] at this
        exact hne this
      have hT : data.length = sizes ops := by
        have := execOps_length ops dict
        rw [k4.exec, List.length_append] at this; omega
      obtain ⟨out, j1, j2, _⟩ := Writer.window_ok (ext := flags != 0) (s := s) (prev := prev) u hnil hr'
        (hsens.writableAll (by simp only [int32Max]; omega)) k4.exec
        (by simp only [int32Max]; omega) (by simp only [int32Max]; omega)
        (by
          rintro (h | h)
          · simpa using hil (by rw [← hil']; exact h)
          · have : flags &&& 2 ≠ 0 := fun h0 => h (hck' h0)
            simp only [bne_iff_ne, ne_eq]
            rintro rfl
            exact this (by simp))
        (by
          intro v hv
          by_cases h2 : flags &&& 2 ≠ 0
          · rw [← hw', if_pos h2] at hv
            simp only [Writer.addChecksum, Option.some.injEq] at hv
            rw [← hv, computeAdler32_eq data (by omega)]
          · rw [hck' (by omega)] at hv; cases hv)
        s3 (by omega)
      refine ⟨⟨true, out⟩ :: rs, out ++ ws, w2, ?_, ?_, by simp [i3], ?_⟩
      · simp only [List.map_cons, List.cons_append, StreamEncoder.calls, StreamEncoder.call, StreamEncoder.chunk,
          Bool.not_true, Bool.false_eq_true, if_false]
        rw [hv]
        dsimp only
        rw [hk, k3]
        dsimp only
        rw [libraryWriter_binary, j1]
        simp only [Except.map]
        rw [i1]
      · intro r hm
        rcases List.mem_cons.1 hm with rfl | hm
        · rfl
        · exact i2 r hm
      · rw [List.flatten_cons]
        exact .cons j2 i4

namespace Props

/-- C56: the encoder with one of the writers of the library is an encoder with a writer of the caller, for all histories
of calls: the same replies, or the same fault. -/
theorem library_encoder_is_instance (engine : Engine) (flags : Nat) (matching : Bool) (cs : List EncoderCall) :
    ((StreamEncoder.mk engine libraryWriter (Encoder.new engine flags matching).coder flags matching false).calls cs).map Prod.fst =
      ((Encoder.new engine flags matching).calls cs).map Prod.fst := by
  have h := Encoder.stream_calls cs (Encoder.new engine flags matching)
  have e : (Encoder.new engine flags matching).stream =
      StreamEncoder.mk engine libraryWriter (Encoder.new engine flags matching).coder flags matching false := by
    rfl
  rw [← e, h]
  cases (Encoder.new engine flags matching).calls cs <;> rfl

/-- C56: writers that behave alike are interchangeable: an encoder gives the same replies and the same output with
either, for all histories of calls, or goes wrong in the same way. -/
theorem alike_writers_same_replies {σ τ : Type} (R : σ → τ → Prop) (w : WriterInterface σ) (v : WriterInterface τ)
    (a : Alike R w v) (s : σ) (t : τ) (h : R s t) (engine : Engine) (flags : Nat) (matching : Bool) (cs : List EncoderCall) :
    ((StreamEncoder.mk engine w s flags matching false).calls cs).map Prod.fst =
      ((StreamEncoder.mk engine v t flags matching false).calls cs).map Prod.fst := by
  have same : StreamEncoder.Same R w v (StreamEncoder.mk engine w s flags matching false)
      (StreamEncoder.mk engine v t flags matching false) := ⟨rfl, rfl, rfl, h, rfl, rfl, rfl⟩
  rcases (same.calls a cs).cases with ⟨f, h1, h2⟩ | ⟨rs, e1, e2, h1, h2, _⟩ <;> rw [h1, h2] <;> rfl

/-- C56: gathering statistics does not change what is encoded: a writer that passes all calls on to another one, and keeps
a record of them, makes the encoder give the replies and the output it gives with the other one. -/
theorem recording_is_transparent {σ : Type} (w : WriterInterface σ) (s : σ) (log : List Event) (engine : Engine) (flags : Nat)
    (matching : Bool) (cs : List EncoderCall) :
    ((StreamEncoder.mk engine (recording w) (s, log) flags matching false).calls cs).map Prod.fst =
      ((StreamEncoder.mk engine w s flags matching false).calls cs).map Prod.fst :=
  (alike_writers_same_replies _ _ _ (recording_alike w) s (s, log) rfl engine flags matching cs).symm

/-- C56: what a writer can rely on. Whatever its methods do, and whatever calls the user makes, the calls it gets and the
replies the user gets are those of a `WriterSession`: `StartEncoding` is `Init`, `VerifyDictionary` and `WriteHeader`;
`EncodeChunk` is `VerifyChunk`, `AddChecksum` if asked for, instructions that build the chunk, and `Output`;
`FinishEncoding` is `FinishEncoding`; and out of order there are no calls at all. -/
theorem writer_protocol (dict : Bytes) (hdict : dict.length < 2 ^ 31) (flags : Nat) (matching : Bool) :
    ∃ engine, Engine.init dict = .ok (some engine) ∧
      ∀ (σ : Type) (w : WriterInterface σ) (s : σ) (cs : List EncoderCall) (rs : List EncoderReply)
        (e' : StreamEncoder (σ × List Event)), EachChunk (fun data => dict.length + data.length < 2 ^ 31) cs →
        (StreamEncoder.mk engine (recording w) (s, []) flags matching false).calls cs = .ok (rs, e') →
        WriterSession dict flags matching false cs e'.state.2 rs := by
  obtain ⟨engine, hashed, h1, h2, _⟩ := Engine.init_ok (dict := dict) (by simp only [int32Max]; omega)
  refine ⟨engine, h1, ?_⟩
  intro σ w s cs rs e' hs h
  obtain ⟨es, k1, k2⟩ := StreamEncoder.calls_session cs
    (e := StreamEncoder.mk engine (recording w) (s, []) flags matching false) rfl h1 (by rw [h2]) hs h
  rw [k1]
  exact k2

/-- C56: the encoder itself never goes wrong: if the methods of the writer do not, no history of calls does, and there is
a `WriterSession` with its replies. -/
theorem writer_session_exists (dict : Bytes) (hdict : dict.length < 2 ^ 31) (flags : Nat) (matching : Bool) :
    ∃ engine, Engine.init dict = .ok (some engine) ∧
      ∀ (σ : Type) (w : WriterInterface σ) (s : σ) (cs : List EncoderCall), Total w →
        EachChunk (fun data => dict.length + data.length < 2 ^ 31) cs →
        ∃ rs e' es, (StreamEncoder.mk engine w s flags matching false).calls cs = .ok (rs, e') ∧
          WriterSession dict flags matching false cs es rs := by
  obtain ⟨engine, h1, h2⟩ := writer_protocol dict hdict flags matching
  refine ⟨engine, h1, ?_⟩
  intro σ w s cs t hs
  obtain ⟨⟨rs, e'⟩, k⟩ := StreamEncoder.calls_total cs
    (e := StreamEncoder.mk engine (recording w) (s, []) flags matching false) (recording_total t) h1 hs
  have tr := recording_is_transparent w s [] engine flags matching cs
  rw [k] at tr
  obtain ⟨⟨rs', d⟩, j1, j2⟩ := Except.map_eq_ok tr.symm
  cases j2
  exact ⟨_, d, _, j1, h2 σ w s cs _ e' hs k⟩

/-- C56: statistics are true: the instructions a writer gets are for as many bytes as there are in the chunks for
which `EncodeChunk` returned `true`. -/
theorem statistics_are_true (dict : Bytes) (hdict : dict.length < 2 ^ 31) (flags : Nat) (matching : Bool) :
    ∃ engine, Engine.init dict = .ok (some engine) ∧
      ∀ (σ : Type) (w : WriterInterface σ) (s : σ) (cs : List EncoderCall) (rs : List EncoderReply)
        (e' : StreamEncoder (σ × List Event)), EachChunk (fun data => dict.length + data.length < 2 ^ 31) cs →
        (StreamEncoder.mk engine (recording w) (s, []) flags matching false).calls cs = .ok (rs, e') →
        bytesDescribed e'.state.2 = bytesAccepted cs rs := by
  obtain ⟨engine, h1, h2⟩ := writer_protocol dict hdict flags matching
  exact ⟨engine, h1, fun σ w s cs rs e' hs h => (h2 σ w s cs rs e' hs h).bytes⟩

/-- C56: a complete encode with a code table writer for any coding succeeds. It is the header of the standard code table
followed by windows in that coding which stand for the chunks. The writer may be interleaved only if some
format flag is set. -/
theorem custom_writer_encodes (c : Coding) (hc : WritableCoding c) (interleaved : Bool) (dict : Bytes) (flags : Nat)
    (hil : interleaved = true → flags ≠ 0) (matching : Bool) (s : Settings) (hdict : dict.length < 2 ^ 31) (chunks : List Bytes)
    (hs : ∀ data ∈ chunks, dict.length + data.length < 2 ^ 31 ∧ data.length + 64 < 2 ^ 31 ∧ data.length ≤ s.maxWindow)
    (hfile : chunks.flatten.length ≤ s.maxFile) :
    ∃ engine rs e' ws, Engine.init dict = .ok (some engine) ∧
      (StreamEncoder.mk engine libraryWriter
          (.binary (Writer.newCustom interleaved c.near c.same c.table (c.near + c.same + 1))) flags matching false).calls
        ([EncoderCall.start] ++ chunks.map EncoderCall.chunk ++ [EncoderCall.finish]) = .ok (rs, e') ∧
      (∀ r ∈ rs, r.ret = true) ∧ rs.flatMap (·.out) = Writer.header flags ++ ws ∧
      Windows c (flags != 0) strict s dict [] ws chunks.flatten := by
  obtain ⟨m, u⟩ := hc.usable
  obtain ⟨engine, hashed, h1, h2, _⟩ := Engine.init_ok (dict := dict) (by simp only [int32Max]; omega)
  have hd : engine.dictionary = dict := by rw [h2]
  obtain ⟨w, k1, k2, k3, k4⟩ := Writer.init_ready u
    (w := Writer.newCustom interleaved c.near c.same c.table (c.near + c.same + 1)) dict.length rfl rfl (Or.inl rfl)
    (Or.inl rfl) rfl rfl rfl
  obtain ⟨rs, ws, w', i1, i2, i3, i4⟩ := StreamEncoder.chunks_ok (s := s) (flags := flags) (matching := matching) (prev := []) u h1
    chunks k4 (fun _ => k3) (by rw [k2]; exact hil) hs (by simpa using hfile)
  refine ⟨engine, ⟨true, Writer.header flags⟩ :: rs, StreamEncoder.mk engine libraryWriter (.binary w') flags matching false, ws, h1,
    ?_, ?_, by simp [i3], i4⟩
  · have hin : libraryWriter.init (.binary (Writer.newCustom interleaved c.near c.same c.table (c.near + c.same + 1))) dict.length =
        .ok (true, .binary w) := by
      simp only [libraryWriter, k1, Except.map]
    have hst : (StreamEncoder.mk engine libraryWriter
          (.binary (Writer.newCustom interleaved c.near c.same c.table (c.near + c.same + 1))) flags matching false).call .start =
        .ok (⟨true, Writer.header flags⟩, StreamEncoder.mk engine libraryWriter (.binary w) flags matching true) := by
      simp only [StreamEncoder.call, StreamEncoder.start, hd, hin]
      rfl
    simp only [List.cons_append, List.nil_append, StreamEncoder.calls]
    rw [hst]
    dsimp only
    rw [i1]
  · intro r hm
    rcases List.mem_cons.1 hm with rfl | hm
    · rfl
    · exact i2 r hm

/-- C56: so with a header that brings the code table, in place of the five bytes the encoder makes, the rest of
the encoder's output is decoded to the chunks, in whatever pieces it arrives. -/
theorem custom_writer_round_trip (c : Coding) (hc : WritableCoding c) (interleaved : Bool) (dict : Bytes) (flags : Nat)
    (hil : interleaved = true → flags ≠ 0) (matching : Bool) (s : Settings) (hdict : dict.length < 2 ^ 31) (chunks : List Bytes)
    (hs : ∀ data ∈ chunks, dict.length + data.length < 2 ^ 31 ∧ data.length + 64 < 2 ^ 31 ∧ data.length ≤ s.maxWindow)
    (hfile : chunks.flatten.length ≤ s.maxFile) (nb sb : Bytes) (hnb : NumCode nb c.near) (hsb : NumCode sb c.same) :
    ∃ delta engine rs e', encode defaultTable.toBytes 0 true [c.table.toBytes] = .ok (some delta) ∧
      Engine.init dict = .ok (some engine) ∧
      (StreamEncoder.mk engine libraryWriter
          (.binary (Writer.newCustom interleaved c.near c.same c.table (c.near + c.same + 1))) flags matching false).calls
        ([EncoderCall.start] ++ chunks.map EncoderCall.chunk ++ [EncoderCall.finish]) = .ok (rs, e') ∧
      ∀ (left : CodeTable) (cs : List Bytes), cs.flatten = [0xD6, 0xC3, 0xC4, if flags = 0 then 0 else 0x53, 2] ++ nb ++ sb ++ delta ++
          (rs.flatMap (·.out)).drop 5 → (leftWith s left).decode dict cs = some chunks.flatten := by
  obtain ⟨delta, h1, h2⟩ := custom_table_transported c.table c.near c.same (by have := hc.near; omega)
    (by have := hc.sum; omega) hc.valid 0 rfl true
  obtain ⟨engine, rs, e', ws, k1, k2, _, k4, k5⟩ := custom_writer_encodes c hc interleaved dict flags hil matching s hdict chunks hs hfile
  refine ⟨delta, engine, rs, e', h1, k1, k2, fun left cs hcs => h2 s left dict ws _ (if flags = 0 then 0 else 0x53)
    nb sb ?_ hnb hsb ?_ cs ?_⟩
  · split <;> simp
  · have e : ((if flags = 0 then 0 else 0x53 : UInt8) == 0x53) = (flags != 0) := by
      by_cases h : flags = 0 <;> simp [h]
    rw [e]
    exact k5.mono ⟨by decide, by decide, by decide, by decide, by decide, Or.inl rfl⟩
  · rw [hcs, k4]
    have : (Writer.header flags).length = 5 := by unfold Writer.header; split <;> rfl
    rw [List.drop_append_of_le_length (by omega), List.drop_of_length_le (by omega), List.nil_append]

/-- Whether an encode with this writer goes well and the result is rejected by a fresh decoder. -/
def rejectedEncode {σ : Type} (dict : Bytes) (w : WriterInterface σ) (s : σ) (flags : Nat) (cs : List EncoderCall) : Bool :=
  match Engine.init dict with
  | .ok (some engine) =>
    match (StreamEncoder.mk engine w s flags false false).calls cs with
    | .ok (rs, _) => rs.all (·.ret) && ((leftWith {} defaultTable).decode dict [rs.flatMap (·.out)]).isNone
    | _ => false
  | _ => false

/-- C56, finding: the header is not enough. The delta that an encoder with a code table writer for a custom code table makes is
rejected by the decoder, since its header does not bring the table. -/
theorem custom_table_undeclared :
    ∃ engine rs e', Engine.init (List.replicate 32 0x61) = .ok (some engine) ∧
      (StreamEncoder.mk engine libraryWriter
          (.binary (Writer.newCustom false smallCoding.near smallCoding.same smallCoding.table 3)) 0 false false).calls
        [.start, .chunk (List.replicate 32 0x61), .finish] = .ok (rs, e') ∧ (∀ r ∈ rs, r.ret = true) ∧
      (leftWith {} defaultTable).decode (List.replicate 32 0x61) [rs.flatMap (·.out)] = none := by
  have h : rejectedEncode (List.replicate 32 0x61) libraryWriter
      (.binary (Writer.newCustom false smallCoding.near smallCoding.same smallCoding.table 3)) 0
      [.start, .chunk (List.replicate 32 0x61), .finish] = true := by decide +kernel
  unfold rejectedEncode at h
  split at h
  · rename_i engine h1
    split at h
    · rename_i rs e' h2
      simp only [Bool.and_eq_true, List.all_eq_true, Option.isNone_iff_eq_none] at h
      exact ⟨engine, rs, e', h1, h2, h.1, h.2⟩
    · cases h
  · cases h

/-- A writer that can be initialised only once, and makes no output: for example one that opens a file. -/
def onceWriter : WriterInterface Bool where
  init opened _ := .ok (!opened, true)
  writeHeader s _ := .ok ([], s)
  add s _ := .ok s
  copy s _ _ := .ok s
  run s _ _ := .ok s
  addChecksum s _ := .ok s
  output s := .ok ([], s)
  finishEncoding s := .ok ([], s)
  verifyDictionary s _ := .ok (true, s)
  verifyChunk s _ := .ok (true, s)

theorem onceWriter_total : Total onceWriter :=
  ⟨fun _ _ => ⟨_, rfl⟩, fun _ _ => ⟨_, rfl⟩, fun _ _ => ⟨_, rfl⟩, fun _ _ _ => ⟨_, rfl⟩, fun _ _ _ => ⟨_, rfl⟩, fun _ _ => ⟨_, rfl⟩,
    fun _ => ⟨_, rfl⟩, fun _ => ⟨_, rfl⟩, fun _ _ => ⟨_, rfl⟩, fun _ _ => ⟨_, rfl⟩⟩

/-- The hypotheses of `writer_session_exists` are met. -/
example : Total onceWriter ∧ EachChunk (fun data => ([0x61] : Bytes).length + data.length < 2 ^ 31) [.start, .chunk [0x62], .start] := by
  refine ⟨onceWriter_total, ?_⟩
  intro data hm
  simp at hm
  subst hm
  decide

/-- C56, finding: after a `StartEncoding` that returned `false`, `EncodeChunk` can return `true`: a failed start in the middle of
an encode does not end it. -/
theorem failed_restart_ignored :
    ∃ engine e', Engine.init [0x61] = .ok (some engine) ∧
      (StreamEncoder.mk engine onceWriter false 0 false false).calls [.start, .start, .chunk [0x62]] =
        .ok ([⟨true, []⟩, ⟨false, []⟩, ⟨true, []⟩], e') := by
  have h : (match Engine.init [0x61] with
      | .ok (some engine) =>
        match (StreamEncoder.mk engine onceWriter false 0 false false).calls [.start, .start, .chunk [0x62]] with
        | .ok (rs, _) => rs == [⟨true, []⟩, ⟨false, []⟩, ⟨true, []⟩]
        | _ => false
      | _ => false) = true := by decide +kernel
  split at h
  · rename_i engine h1
    split at h
    · rename_i rs e' h2
      rw [beq_iff_eq] at h
      rw [h] at h2
      exact ⟨engine, e', h1, h2⟩
    · cases h
  · cases h

/-- The hypotheses of `writer_protocol`, `statistics_are_true` and `recording_is_transparent` are met: the calls the writer gets. -/
example : ∃ engine e', Engine.init [0x61] = .ok (some engine) ∧
    (StreamEncoder.mk engine (recording onceWriter) (false, []) 2 false false).calls [.start, .chunk [0x62, 0x63], .finish, .finish] =
      .ok ([⟨true, []⟩, ⟨true, []⟩, ⟨true, []⟩, ⟨false, []⟩], e') ∧
    e'.state.2 = [.init 1 true, .verifyDictionary [0x61] true, .writeHeader 2 [], .verifyChunk [0x62, 0x63] true,
      .addChecksum (adlerOf [0x62, 0x63]), .add [0x62, 0x63], .output [], .finishEncoding []] := by
  have h : (match Engine.init [0x61] with
      | .ok (some engine) =>
        match (StreamEncoder.mk engine (recording onceWriter) (false, []) 2 false false).calls
          [.start, .chunk [0x62, 0x63], .finish, .finish] with
        | .ok (rs, e') => rs == [⟨true, []⟩, ⟨true, []⟩, ⟨true, []⟩, ⟨false, []⟩] &&
            decide (e'.state.2 = [.init 1 true, .verifyDictionary [0x61] true, .writeHeader 2 [], .verifyChunk [0x62, 0x63] true,
              .addChecksum (adlerOf [0x62, 0x63]), .add [0x62, 0x63], .output [], .finishEncoding []])
        | _ => false
      | _ => false) = true := by decide +kernel
  split at h
  · rename_i engine h1
    split at h
    · rename_i rs e' h2
      rw [Bool.and_eq_true, beq_iff_eq, decide_eq_true_eq] at h
      rw [h.1] at h2
      exact ⟨engine, e', h1, h2, h.2⟩
    · cases h
  · cases h

/-- The hypotheses of `custom_writer_encodes` and `custom_writer_round_trip` are met. -/
example : WritableCoding smallCoding ∧ (∀ data ∈ ([[0x61, 0x62], [], [0x63]] : List Bytes), ([0x61] : Bytes).length + data.length < 2 ^ 31 ∧
    data.length + 64 < 2 ^ 31 ∧ data.length ≤ ({} : Settings).maxWindow) ∧ NumCode [1] smallCoding.near ∧ NumCode [1] smallCoding.same :=
  ⟨small_coding_writable, by decide, numCode_byte' rfl (by decide), numCode_byte' rfl (by decide)⟩

end Props
end Vcd
