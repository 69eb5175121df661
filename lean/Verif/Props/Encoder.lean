import Verif.Proof.Encoder

/-!
# C01, C29, C30, C34: the streaming encoder in the binary formats

`flags &&& 4 = 0` says that the format is not JSON; bit 0 of `flags` is the interleaved layout, bit 1 the
checksum.
-/

namespace Vcd
open Spec

/-- The windows of a list of chunks. -/
theorem Encoder.windows_of_chunks {dict : Bytes} {ext : Bool} {s : Settings} {window : Bytes → Bytes}
    {chunks : List Bytes} {prev : Bytes}
    (hempty : window [] = [])
    (hwin : ∀ data ∈ chunks, data ≠ [] → ∀ prev, prev.length + data.length ≤ s.maxFile →
      WindowCode defaultCoding ext strict s dict prev (window data) data)
    (hfile : prev.length + chunks.flatten.length ≤ s.maxFile) :
    Windows defaultCoding ext strict s dict prev (chunks.flatMap window) chunks.flatten := by
  induction chunks generalizing prev with
  | nil => exact .nil
  | cons c cs ih =>
    simp only [List.flatten_cons, List.length_append] at hfile
    by_cases hc : c = []
    · subst hc
      simp only [List.flatMap_cons, hempty, List.flatten_cons, List.nil_append]
      exact ih (fun data hm => hwin data (List.mem_cons_of_mem _ hm)) (by simpa using hfile)
    · simp only [List.flatMap_cons, List.flatten_cons]
      refine .cons (hwin c (List.mem_cons_self ..) hc prev (by omega)) ?_
      exact ih (fun data hm => hwin data (List.mem_cons_of_mem _ hm)) (by simp only [List.length_append]; omega)

theorem protocol_encode (header : Bytes) (window : Bytes → Bytes) (b : Bool) (chunks : List Bytes) :
    protocol header window b ([.start] ++ chunks.map .chunk ++ [.finish]) =
      [⟨true, header⟩] ++ chunks.map (fun c => ⟨true, window c⟩) ++ [⟨true, []⟩] := by
  have h : protocol header window true (chunks.map .chunk ++ [.finish]) =
      chunks.map (fun c => ⟨true, window c⟩) ++ [⟨true, []⟩] := by
    induction chunks with
    | nil => rfl
    | cons c cs ih => simp only [List.map_cons, List.cons_append, protocol, ih]
  cases b <;> simp only [List.cons_append, List.nil_append, protocol, h]

/-- `encoder_protocol` below, and the instructions and the source segment of each window. -/
theorem Encoder.protocol_full (dict : Bytes) (hdict : dict.length < 2 ^ 31) (flags : Nat) (hb : flags &&& 4 = 0)
    (matching : Bool) :
    ∃ engine window, Engine.init dict = .ok (some engine) ∧
      (∀ cs, EachChunk (fun data => dict.length + data.length < 2 ^ 31 ∧ data.length + 64 < 2 ^ 31) cs →
        ∃ e', (Encoder.new engine flags matching).calls cs =
          .ok (protocol (Writer.header flags) window false cs, e')) ∧
      window [] = [] ∧
      ∀ data, data ≠ [] → dict.length + data.length < 2 ^ 31 → data.length + 64 < 2 ^ 31 →
        (window data).length ≤ data.length + 44 ∧ Layout (flags &&& 1 != 0) (flags &&& 2 != 0) data (window data) ∧
        (∀ s prev, data.length ≤ s.maxWindow → prev.length + data.length ≤ s.maxFile →
          WindowCode defaultCoding (flags != 0) strict s dict prev (window data) data) ∧
        (∃ ops, Engine.Whole dict data matching ops ∧ (window data).length ≤ Writer.costs ops + 38 ∧
          ∃ (R : Reading (window data)) (items : List Item), WrittenAs defaultCoding (flags != 0) R dict.length items ops) ∧
        SourceIs dict.length (window data) := by
  obtain ⟨engine, hashed, h1, h2, _⟩ := Engine.init_ok (dict := dict) (by simp only [int32Max]; omega)
  have hd : engine.dictionary = dict := by rw [h2]
  have hready : ∀ m, Writer.Usable defaultCoding 8 m → ∀ data, Writer.Ready defaultCoding 8 m dict.length
      (Encoder.chunkWriter (Encoder.new engine flags matching) m data) := by
    intro m u data
    have := Encoder.chunkWriter_always_ready (e0 := Encoder.new engine flags matching) u data
    simp only [Encoder.new, hd] at this ⊢
    exact this
  obtain ⟨m, u⟩ := Encoder.usable
  refine ⟨engine, Encoder.window (Encoder.new engine flags matching) m, h1, ?_, ?_, ?_⟩
  · intro cs hs
    obtain ⟨e', k1, _⟩ := Encoder.calls_ok (e0 := Encoder.new engine flags matching) (dict := dict) u h1 hd
      (Encoder.new_inv hb m) hs
    exact ⟨e', k1⟩
  · rcases Encoder.window_spec (e0 := Encoder.new engine flags matching) u h1 ⟨by simpa using hdict, by simp⟩ (hready m u [])
      with ⟨_, w1, _⟩ | ⟨w1, _⟩
    · exact w1
    · exact absurd rfl w1
  · intro data hne hs1 hs2
    rcases Encoder.window_spec (e0 := Encoder.new engine flags matching) u h1 ⟨hs1, hs2⟩ (hready m u data)
      with ⟨w1, _⟩ | ⟨_, _, _, _, w3, w4, w5, w6⟩
    · exact absurd w1 hne
    · refine ⟨w3, ?_, w5, w6⟩
      have e : (Encoder.chunkWriter (Encoder.new engine flags matching) m data).checksum.isSome = (flags &&& 2 != 0) := by
        simp only [Encoder.chunkWriter, Encoder.new]
        by_cases h : flags &&& 2 = 0 <;> simp [h]
      rw [e] at w4
      exact w4

namespace Props

/-- C29, C30, C34. For every dictionary (below 2^31 bytes), binary format and choice of target matching
there are fixed replies: a function `window` of the chunk alone. Whatever calls of `StartEncoding`,
`EncodeChunk` and `FinishEncoding` are made on a new encoder, in whatever order and however many encodings
they make up, no fault occurs and each call is answered as `protocol` says: the header for `StartEncoding`;
`true` and `window data` for `EncodeChunk(data)` if encoding was started and has not been finished since;
`false` and no output for calls out of order. The window of the empty chunk is empty; the window of any other
is at most 44 bytes longer than the chunk, has the layout asked for, and is one window of a delta file that stands
for the chunk, wherever it is put in the file. -/
theorem encoder_protocol (dict : Bytes) (hdict : dict.length < 2 ^ 31) (flags : Nat) (hb : flags &&& 4 = 0)
    (matching : Bool) :
    ∃ engine window, Engine.init dict = .ok (some engine) ∧
      (∀ cs, EachChunk (fun data => dict.length + data.length < 2 ^ 31 ∧ data.length + 64 < 2 ^ 31) cs →
        ∃ e', (Encoder.new engine flags matching).calls cs =
          .ok (protocol (Writer.header flags) window false cs, e')) ∧
      window [] = [] ∧
      ∀ data, data ≠ [] → dict.length + data.length < 2 ^ 31 → data.length + 64 < 2 ^ 31 →
        (window data).length ≤ data.length + 44 ∧ Layout (flags &&& 1 != 0) (flags &&& 2 != 0) data (window data) ∧
        ∀ s prev, data.length ≤ s.maxWindow → prev.length + data.length ≤ s.maxFile →
          WindowCode defaultCoding (flags != 0) strict s dict prev (window data) data := by
  obtain ⟨engine, window, h1, h2, h3, h4⟩ := Encoder.protocol_full dict hdict flags hb matching
  refine ⟨engine, window, h1, h2, h3, fun data hne hs1 hs2 => ?_⟩
  obtain ⟨k1, k2, k3, _⟩ := h4 data hne hs1 hs2
  exact ⟨k1, k2, k3⟩

/-- C34: the replies to a complete encode, and that it consists of the file header and one window for each
chunk that is not empty. -/
theorem encode_is_header_and_windows (dict : Bytes) (hdict : dict.length < 2 ^ 31) (flags : Nat)
    (hb : flags &&& 4 = 0) (matching : Bool) (chunks : List Bytes)
    (hs : ∀ data ∈ chunks, dict.length + data.length < 2 ^ 31 ∧ data.length + 64 < 2 ^ 31) :
    ∃ windows : List Bytes, encode dict flags matching chunks = .ok (some (Writer.header flags ++ windows.flatten)) ∧
      windows.length = (chunks.filter (· ≠ [])).length ∧
      ∀ (i : Nat) (data : Bytes), (chunks.filter (· ≠ []))[i]? = some data → ∃ w, windows[i]? = some w ∧
        w.length ≤ data.length + 44 ∧ Layout (flags &&& 1 != 0) (flags &&& 2 != 0) data w ∧
        ∀ s prev, data.length ≤ s.maxWindow → prev.length + data.length ≤ s.maxFile →
          WindowCode defaultCoding (flags != 0) strict s dict prev w data := by
  obtain ⟨engine, window, h1, h2, h3, h4⟩ := encoder_protocol dict hdict flags hb matching
  refine ⟨(chunks.filter (· ≠ [])).map window, ?_, by simp, ?_⟩
  · obtain ⟨e', k⟩ := h2 ([.start] ++ chunks.map .chunk ++ [.finish]) (by
      intro data hm
      simp at hm
      exact hs data hm)
    simp only [encode, h1, k, protocol_encode]
    rw [if_pos (by simp)]
    have key : ∀ l : List Bytes, l.flatMap window = ((l.filter (· ≠ [])).map window).flatten := by
      intro l
      induction l with
      | nil => rfl
      | cons c cs ih =>
        by_cases hc : c = []
        · subst hc; simpa [h3] using ih
        · simpa [hc] using ih
    simp [List.flatMap_map, key]
  · intro i data hi
    have hm := List.mem_of_getElem? hi
    simp at hm
    obtain ⟨k1, k2⟩ := h4 data hm.2 (hs data hm.1).1 (hs data hm.1).2
    exact ⟨window data, by rw [List.getElem?_map, hi]; rfl, k1, k2⟩

/-- C46: the format flags (1: interleaved, 2: checksum) do what they say. The delta begins with the version 0 if no flag is
set and `S` otherwise; it has one window for each chunk that is not empty, interleaved exactly if asked for, with a checksum, the
Adler-32 of the chunk, exactly if asked for. -/
theorem format_flags_effective (dict : Bytes) (hdict : dict.length < 2 ^ 31) (interleaved checksum matching : Bool)
    (chunks : List Bytes) (hs : ∀ data ∈ chunks, dict.length + data.length < 2 ^ 31 ∧ data.length + 64 < 2 ^ 31) :
    ∃ windows : List Bytes,
      encode dict ((if interleaved then 1 else 0) + (if checksum then 2 else 0)) matching chunks = .ok (some
        ([0xD6, 0xC3, 0xC4, if interleaved || checksum then 0x53 else 0, 0] ++ windows.flatten)) ∧
      windows.length = (chunks.filter (· ≠ [])).length ∧
      ∀ (i : Nat) (data : Bytes), (chunks.filter (· ≠ []))[i]? = some data →
        ∃ w, windows[i]? = some w ∧ Layout interleaved checksum data w := by
  obtain ⟨windows, h1, h2, h3⟩ := encode_is_header_and_windows dict hdict ((if interleaved then 1 else 0) + (if checksum then 2 else 0))
    (by cases interleaved <;> cases checksum <;> decide) matching chunks hs
  refine ⟨windows, ?_, h2, ?_⟩
  · rw [h1]
    cases interleaved <;> cases checksum <;> rfl
  · intro i data hi
    obtain ⟨w, k1, _, k3, _⟩ := h3 i data hi
    refine ⟨w, k1, ?_⟩
    revert k3
    cases interleaved <;> cases checksum <;> exact id

/-- An instance of the hypotheses, and the deltas for two of the combinations: with neither flag, the window has its
addresses (here none) and data in sections of their own; with both, the checksum 0x00620062 comes before an interleaved section. -/
example :
    (∀ data ∈ [[0x61], [], ([0x62, 0x63] : Bytes)], ([0x61] : Bytes).length + data.length < 2 ^ 31 ∧ data.length + 64 < 2 ^ 31) ∧
    (encode [0x61] 0 true [[0x62]]).toOption = some (some
      [0xD6, 0xC3, 0xC4, 0, 0, 1, 1, 0, 7, 1, 0, 1, 1, 0, 0x62, 2]) ∧
    (encode [0x61] 3 true [[0x62]]).toOption = some (some
      [0xD6, 0xC3, 0xC4, 0x53, 0, 5, 1, 0, 11, 1, 0, 0, 2, 0, 0x83, 0x88, 0x80, 0x62, 2, 0x62]) := by
  refine ⟨?_, by decide +kernel, by decide +kernel⟩
  intro data hm
  simp at hm
  rcases hm with rfl | rfl | rfl <;> simp

/-- C30: after any history of calls, `StartEncoding` and what follows it are answered as by a new
encoder. -/
theorem encoder_reuse (dict : Bytes) (hdict : dict.length < 2 ^ 31) (flags : Nat) (hb : flags &&& 4 = 0)
    (matching : Bool) (history cs : List EncoderCall)
    (hh : EachChunk (fun data => dict.length + data.length < 2 ^ 31 ∧ data.length + 64 < 2 ^ 31) history)
    (hs : EachChunk (fun data => dict.length + data.length < 2 ^ 31 ∧ data.length + 64 < 2 ^ 31) cs) :
    ∃ engine old new e1 e2, Engine.init dict = .ok (some engine) ∧
      (Encoder.new engine flags matching).calls (.start :: cs) = .ok (new, e1) ∧
      (Encoder.new engine flags matching).calls (history ++ .start :: cs) = .ok (old ++ new, e2) ∧
      old.length = history.length := by
  obtain ⟨engine, window, h1, h2, _⟩ := encoder_protocol dict hdict flags hb matching
  obtain ⟨e1, k1⟩ := h2 (.start :: cs) (by
    intro data hm
    simp at hm
    exact hs data hm)
  obtain ⟨e2, k2⟩ := h2 (history ++ .start :: cs) (by
    intro data hm
    simp at hm
    exact hm.elim (hh data) (hs data))
  have key : ∀ (l : List EncoderCall) (b : Bool), ∃ old : List EncoderReply, old.length = l.length ∧
      protocol (Writer.header flags) window b (l ++ .start :: cs) =
        old ++ protocol (Writer.header flags) window false (.start :: cs) := by
    intro l
    induction l with
    | nil => intro b; exact ⟨[], rfl, by cases b <;> rfl⟩
    | cons c l ih =>
      intro b
      obtain ⟨b', r, hr⟩ : ∃ b' r, ∀ l', protocol (Writer.header flags) window b (c :: l') =
          r :: protocol (Writer.header flags) window b' l' := by
        cases c <;> cases b <;> exact ⟨_, _, fun _ => rfl⟩
      obtain ⟨old, o1, o2⟩ := ih b'
      exact ⟨r :: old, by simp [o1], by rw [List.cons_append, hr, o2]; rfl⟩
  obtain ⟨old, o1, o2⟩ := key history false
  exact ⟨engine, old, _, e1, e2, h1, k1, by rw [k2, o2], o1⟩

/-- C01. Encoding the chunks with a new encoder succeeds, and feeding the output, in any division into
chunks, to a decoder with the same dictionary gives back the target: for every dictionary and chunks within
the 31-bit sizes of the format, all binary formats, target matching on or off, and any limits `s` of the
decoder that the target respects. -/
theorem round_trip (dict : Bytes) (hdict : dict.length < 2 ^ 31) (flags : Nat) (hb : flags &&& 4 = 0)
    (matching : Bool) (chunks : List Bytes)
    (hs : ∀ data ∈ chunks, dict.length + data.length < 2 ^ 31 ∧ data.length + 64 < 2 ^ 31)
    (s : Settings) (hwin : ∀ data ∈ chunks, data.length ≤ s.maxWindow)
    (hfile : chunks.flatten.length ≤ s.maxFile) :
    ∃ delta, encode dict flags matching chunks = .ok (some delta) ∧
      ∀ cs : List Bytes, cs.flatten = delta → (configured s).decode dict cs = some chunks.flatten := by
  obtain ⟨engine, window, h1, h2, h3, h4⟩ := encoder_protocol dict hdict flags hb matching
  obtain ⟨e', k⟩ := h2 ([.start] ++ chunks.map .chunk ++ [.finish]) (by
    intro data hm
    simp at hm
    exact hs data hm)
  refine ⟨Writer.header flags ++ chunks.flatMap window, ?_, ?_⟩
  · simp only [encode, h1, k, protocol_encode]
    rw [if_pos (by simp)]
    simp [List.flatMap_map]
  · intro cs hcs
    have hw : Windows defaultCoding (flags != 0) strict s dict [] (chunks.flatMap window) chunks.flatten :=
      Encoder.windows_of_chunks h3 (fun data hm hne prev hp =>
        (h4 data hne (hs data hm).1 (hs data hm).2).2.2 s prev (hwin data hm) hp) (by simpa using hfile)
    exact conforming_accepted_partial s dict _ _ (Writer.fileCode_of_windows hw) cs hcs

/-- An instance: two chunks, of which the second repeats the first. -/
example : let c : Bytes := List.replicate 40 0x61
    (∀ data ∈ [c, [], c], ([] : Bytes).length + data.length < 2 ^ 31 ∧ data.length + 64 < 2 ^ 31) ∧
    (3 : Nat) &&& 4 = 0 ∧ (∀ data ∈ [c, [], c], data.length ≤ ({} : Settings).maxWindow) ∧
    [c, [], c].flatten.length ≤ ({} : Settings).maxFile := by decide +kernel

/-! ## `VCDiffEncoder` -/

/-- C43. For every history of calls of a `VCDiffEncoder` (`Encode`, `SetFormatFlags` with binary formats,
`SetTargetMatching`): no fault occurs, and every `Encode` returns `true` and leaves in the output string what a
new streaming encoder with the settings in force at the first `Encode` outputs for that target. -/
theorem simple_encoder_is_streaming (dict : Bytes) (hdict : dict.length < 2 ^ 31) (cs : List SimpleCall)
    (hf : ∀ flags, .setFormatFlags flags ∈ cs → flags &&& 4 = 0)
    (hs : ∀ target, .encode target ∈ cs → dict.length + target.length < 2 ^ 31 ∧ target.length + 64 < 2 ^ 31) :
    ∃ rs s', ({ dictionary := dict } : SimpleEncoder).calls cs = .ok (rs, s') ∧ rs.length = cs.length ∧
      ∀ (i : Nat) (target : Bytes), cs[i]? = some (.encode target) →
        ∃ delta, rs[i]? = some (some (true, delta)) ∧
          encode dict (firstSettings cs).1 (firstSettings cs).2 [target] = .ok (some delta) := by
  obtain ⟨engine, hashed, h1, h2, _⟩ := Engine.init_ok (dict := dict) (by simp only [int32Max]; omega)
  have hd : engine.dictionary = dict := by rw [h2]
  obtain ⟨m, u⟩ := Encoder.usable
  have fresh : ∀ flags matching target, flags &&& 4 = 0 → Encoder.Small dict target →
      encode dict flags matching [target] =
        .ok (some (Writer.header flags ++ Encoder.window (Encoder.new engine flags matching) m target)) := by
    intro flags matching target hb hsm
    obtain ⟨e', k, _⟩ := Encoder.calls_ok (e0 := Encoder.new engine flags matching) (dict := dict) u h1 hd
      (Encoder.new_inv hb m) (cs := [.start] ++ [target].map .chunk ++ [.finish]) (by
        intro data hm
        simp at hm
        rw [hm]; exact hsm)
    have hp := protocol_encode (Writer.header flags) (Encoder.window (Encoder.new engine flags matching) m) false [target]
    have ha : (Encoder.new engine flags matching).allowed = false := rfl
    have hfl : (Encoder.new engine flags matching).flags = flags := rfl
    rw [ha, hfl, hp] at k
    simp only [encode, h1, k]
    rw [if_pos (by simp)]
    simp
  -- after the first `Encode`
  have later : ∀ flags matching, flags &&& 4 = 0 → ∀ (cs : List SimpleCall) (x : SimpleEncoder) (e : Encoder),
      (∀ target, .encode target ∈ cs → Encoder.Small dict target) → x.dictionary = dict → x.encoder = some e →
      Encoder.Inv (Encoder.new engine flags matching) m e →
      ∃ rs s', x.calls cs = .ok (rs, s') ∧ rs.length = cs.length ∧
        ∀ (i : Nat) (target : Bytes), cs[i]? = some (.encode target) →
          ∃ delta, rs[i]? = some (some (true, delta)) ∧ encode dict flags matching [target] = .ok (some delta) := by
    intro flags matching hb cs
    induction cs with
    | nil => intro x e _ _ _ _; exact ⟨[], x, rfl, rfl, by simp⟩
    | cons c cs ih =>
      intro x e hsm hx hxe hinv
      have hsm' : ∀ target, .encode target ∈ cs → Encoder.Small dict target :=
        fun t ht => hsm t (List.mem_cons_of_mem _ ht)
      cases c with
      | setFormatFlags f =>
        obtain ⟨rs, s', j1, j2, j3⟩ := ih { x with flags := f } e hsm' hx hxe hinv
        refine ⟨none :: rs, s', by simp only [SimpleEncoder.calls, SimpleEncoder.call, j1, Except.map], by simp [j2], ?_⟩
        intro i target hi
        cases i with
        | zero => simp at hi
        | succ i => exact j3 i target (by simpa using hi)
      | setTargetMatching on =>
        obtain ⟨rs, s', j1, j2, j3⟩ := ih { x with lookForTargetMatches := on } e hsm' hx hxe hinv
        refine ⟨none :: rs, s', by simp only [SimpleEncoder.calls, SimpleEncoder.call, j1, Except.map], by simp [j2], ?_⟩
        intro i target hi
        cases i with
        | zero => simp at hi
        | succ i => exact j3 i target (by simpa using hi)
      | encode t =>
        have ht := hsm t (List.mem_cons_self ..)
        obtain ⟨e', k1, k2⟩ := SimpleEncoder.encode_ok (x := x) hb u h1 hd hx (Or.inr ⟨e, hxe, hinv⟩) ht
        obtain ⟨rs, s', j1, j2, j3⟩ := ih { x with encoder := some e' } e' hsm' hx rfl k2
        refine ⟨some (true, Writer.header flags ++ Encoder.window (Encoder.new engine flags matching) m t) :: rs, s',
          by simp only [SimpleEncoder.calls, SimpleEncoder.call, k1, j1, Except.map], by simp [j2], ?_⟩
        intro i target hi
        cases i with
        | zero =>
          simp at hi
          subst hi
          exact ⟨_, rfl, fresh _ _ _ hb ht⟩
        | succ i => exact j3 i target (by simpa using hi)
  -- before it
  have before : ∀ (cs : List SimpleCall) (x : SimpleEncoder), x.flags &&& 4 = 0 →
      (∀ flags, .setFormatFlags flags ∈ cs → flags &&& 4 = 0) →
      (∀ target, .encode target ∈ cs → Encoder.Small dict target) → x.dictionary = dict → x.encoder = none →
      ∃ rs s', x.calls cs = .ok (rs, s') ∧ rs.length = cs.length ∧
        ∀ (i : Nat) (target : Bytes), cs[i]? = some (.encode target) →
          ∃ delta, rs[i]? = some (some (true, delta)) ∧
            encode dict (settingsFrom x.flags x.lookForTargetMatches cs).1
              (settingsFrom x.flags x.lookForTargetMatches cs).2 [target] = .ok (some delta) := by
    intro cs
    induction cs with
    | nil => intro x _ _ _ _ _; exact ⟨[], x, rfl, rfl, by simp⟩
    | cons c cs ih =>
      intro x hxf hf' hsm hx hxe
      have hsm' : ∀ target, .encode target ∈ cs → Encoder.Small dict target :=
        fun t ht => hsm t (List.mem_cons_of_mem _ ht)
      have hf'' : ∀ flags, .setFormatFlags flags ∈ cs → flags &&& 4 = 0 :=
        fun t ht => hf' t (List.mem_cons_of_mem _ ht)
      cases c with
      | setFormatFlags f =>
        obtain ⟨rs, s', j1, j2, j3⟩ := ih { x with flags := f } (hf' f (List.mem_cons_self ..)) hf'' hsm' hx hxe
        refine ⟨none :: rs, s', by simp only [SimpleEncoder.calls, SimpleEncoder.call, j1, Except.map], by simp [j2], ?_⟩
        intro i target hi
        cases i with
        | zero => simp at hi
        | succ i => exact j3 i target (by simpa using hi)
      | setTargetMatching on =>
        obtain ⟨rs, s', j1, j2, j3⟩ := ih { x with lookForTargetMatches := on } hxf hf'' hsm' hx hxe
        refine ⟨none :: rs, s', by simp only [SimpleEncoder.calls, SimpleEncoder.call, j1, Except.map], by simp [j2], ?_⟩
        intro i target hi
        cases i with
        | zero => simp at hi
        | succ i => exact j3 i target (by simpa using hi)
      | encode t =>
        have ht := hsm t (List.mem_cons_self ..)
        obtain ⟨e', k1, k2⟩ := SimpleEncoder.encode_ok (x := x) hxf u h1 hd hx (Or.inl ⟨hxe, rfl, rfl⟩) ht
        obtain ⟨rs, s', j1, j2, j3⟩ := later x.flags x.lookForTargetMatches hxf cs { x with encoder := some e' } e'
          hsm' hx rfl k2
        refine ⟨some (true, Writer.header x.flags ++
            Encoder.window (Encoder.new engine x.flags x.lookForTargetMatches) m t) :: rs, s',
          by simp only [SimpleEncoder.calls, SimpleEncoder.call, k1, j1, Except.map], by simp [j2], ?_⟩
        intro i target hi
        cases i with
        | zero =>
          simp at hi
          subst hi
          exact ⟨_, rfl, fresh _ _ _ hxf ht⟩
        | succ i => exact j3 i target (by simpa using hi)
  exact before cs { dictionary := dict } (show (0 : Nat) &&& 4 = 0 by decide) hf (fun t ht => hs t ht) rfl rfl

/-- C01 and C43 for the pair `VCDiffEncoder`, decoder: whatever the encoder was used for before, what it
outputs for a target is decoded to that target. -/
theorem simple_round_trip (dict : Bytes) (hdict : dict.length < 2 ^ 31) (history : List SimpleCall) (target : Bytes)
    (hf : ∀ flags, .setFormatFlags flags ∈ history → flags &&& 4 = 0)
    (hs : ∀ t, .encode t ∈ history ++ [.encode target] → dict.length + t.length < 2 ^ 31 ∧ t.length + 64 < 2 ^ 31)
    (s : Settings) (hwin : target.length ≤ s.maxWindow) (hfile : target.length ≤ s.maxFile) :
    ∃ rs delta s', ({ dictionary := dict } : SimpleEncoder).calls (history ++ [.encode target]) =
        .ok (rs ++ [some (true, delta)], s') ∧
      ∀ cs : List Bytes, cs.flatten = delta → (configured s).decode dict cs = some target := by
  obtain ⟨rs, s', h1, h2, h3⟩ := simple_encoder_is_streaming dict hdict (history ++ [.encode target])
    (by intro f hm; simp at hm; exact hf f hm) hs
  obtain ⟨delta, d1, d2⟩ := h3 history.length target (by simp)
  have hb : (firstSettings (history ++ [.encode target])).1 &&& 4 = 0 := by
    have : ∀ (l : List SimpleCall) f m, f &&& 4 = 0 → (∀ flags, .setFormatFlags flags ∈ l → flags &&& 4 = 0) →
        (settingsFrom f m l).1 &&& 4 = 0 := by
      intro l
      induction l with
      | nil => intro f m h _; exact h
      | cons c l ih =>
        intro f m h hl
        have hl' : ∀ flags, .setFormatFlags flags ∈ l → flags &&& 4 = 0 := fun g hg => hl g (List.mem_cons_of_mem _ hg)
        cases c with
        | setFormatFlags g => exact ih _ _ (hl g (List.mem_cons_self ..)) hl'
        | setTargetMatching on => exact ih _ _ h hl'
        | encode t => exact h
    exact this _ _ _ (by decide) (by intro f hm; simp at hm; exact hf f hm)
  obtain ⟨delta', k1, k2⟩ := round_trip dict hdict _ hb (firstSettings (history ++ [.encode target])).2 [target]
    (by intro data hm; simp at hm; subst hm; exact hs _ (by simp)) s (by intro data hm; simp at hm; subst hm; exact hwin)
    (by simpa using hfile)
  rw [d2] at k1
  injection k1 with k1
  injection k1 with k1
  subst k1
  refine ⟨rs.take history.length, delta, s', ?_, fun cs hcs => by simpa using k2 cs hcs⟩
  rw [h1]
  congr 2
  have hlen : rs.length = history.length + 1 := by simpa using h2
  have hlast : rs[history.length] = some (true, delta) := by
    have := List.getElem?_eq_getElem (l := rs) (i := history.length) (by omega)
    rw [d1] at this
    exact (Option.some.inj this).symm
  rw [← hlast, List.take_append_getElem (by omega), List.take_of_length_le (by omega)]

/-- Against what the setters' names suggest: after the first `Encode` they have no effect. Here the second
`Encode` outputs the standard format although the interleaved one has been asked for. -/
theorem late_settings_ignored : ∃ rs s' delta,
    ({ dictionary := [] } : SimpleEncoder).calls [.encode [0x61], .setFormatFlags 1, .encode [0x62]] = .ok (rs, s') ∧
      rs[2]? = some (some (true, Writer.header 0 ++ delta)) := by
  obtain ⟨rs, s', h1, _, h3⟩ := simple_encoder_is_streaming [] (by simp)
    [.encode [0x61], .setFormatFlags 1, .encode [0x62]]
    (by intro f hm; simp at hm; subst hm; decide) (by intro t hm; simp at hm; rcases hm with rfl | rfl <;> simp)
  obtain ⟨delta, d1, d2⟩ := h3 2 [0x62] rfl
  obtain ⟨windows, k1, _⟩ := encode_is_header_and_windows [] (by simp) 0 (by decide) true [[0x62]] (by simp)
  have e : firstSettings [.encode [0x61], .setFormatFlags 1, .encode [0x62]] = (0, true) := rfl
  rw [e, k1] at d2
  injection d2 with d2
  injection d2 with d2
  exact ⟨rs, s', windows.flatten, h1, by rw [d1, d2]⟩

/-- Instances of the hypotheses of `simple_round_trip`. -/
example : (∀ flags, SimpleCall.setFormatFlags flags ∈ [.setFormatFlags 3, .encode [0x61]] → flags &&& 4 = 0) ∧
    (∀ t, SimpleCall.encode t ∈ [SimpleCall.setFormatFlags 3, .encode [0x61]] ++ [.encode [0x62, 0x63]] →
      ([0x64] : Bytes).length + t.length < 2 ^ 31 ∧ t.length + 64 < 2 ^ 31) := by
  constructor
  · intro f hm; simp at hm; subst hm; decide
  · intro t hm; simp at hm; rcases hm with rfl | rfl <;> simp

end Props
end Vcd
