import Verif.Proof.ReleaseAny
import Verif.Props.Json
import Verif.Props.Stream

/-!
# C68: debug and release builds of the encoder
-/

namespace Vcd.Props
open Vcd Vcd.Spec

/-- C68: whatever is done with a dictionary and an encoder: a release build answers as a debug build does, up to the call at which
the debug build exits, if there is one. -/
theorem builds_agree (dict : Bytes) (flags : Nat) (matching : Bool) (cs : List PairCall) :
    Release.pairCalls (Encoder.newPair dict flags matching) cs = (Encoder.newPair dict flags matching).pairCalls cs ∨
      ((Encoder.newPair dict flags matching).pairCalls cs).2 = some .assertion ∧
        ((Encoder.newPair dict flags matching).pairCalls cs).1 <+:
          (Release.pairCalls (Encoder.newPair dict flags matching) cs).1 :=
  Release.pairCalls_agrees _ _

/-- C68, binary formats: a debug build exits if and only if the rules for the use of the dictionary are broken, and there is no other
fault. -/
theorem debug_build_exits_iff (dict : Bytes) (hdict : dict.length < 2 ^ 31) (flags : Nat) (hb : flags &&& 4 = 0) (matching : Bool)
    (cs : List PairCall)
    (hs : EachPairChunk (fun data => dict.length + data.length < 2 ^ 31 ∧ data.length + 64 < 2 ^ 31) cs) :
    ((Encoder.newPair dict flags matching).pairCalls cs).2 =
      if misused true (fun _ => true) false false cs then some .assertion else none := by
  obtain ⟨m, u⟩ := Encoder.usable
  obtain ⟨engine, hashed, h1, h2, _⟩ := Engine.init_ok (dict := dict) (by simp only [int32Max]; omega)
  exact Encoder.pair_exits u h1 cs false _ (Encoder.new_inv hb m) hs

/-- C68, the JSON format, which takes only ASCII. -/
theorem debug_build_exits_iff_json (dict : Bytes) (hdict : dict.length < 2 ^ 31) (flags : Nat) (hj : flags &&& 4 ≠ 0) (matching : Bool)
    (cs : List PairCall) (hs : EachPairChunk (fun data => dict.length + data.length < 2 ^ 31) cs) :
    ((Encoder.newPair dict flags matching).pairCalls cs).2 =
      if misused (JsonWriter.isAscii dict) JsonWriter.isAscii false false cs then some .assertion else none := by
  obtain ⟨engine, hashed, h1, h2, _⟩ := Engine.init_ok (dict := dict) (by simp only [int32Max]; omega)
  exact Encoder.pair_exits_json hdict h1 cs false _ rfl rfl
    ⟨{}, by simp [Encoder.newPair, Encoder.new, createWriter, hj]⟩ hs

/-- C68: if the rules are followed, the two builds do the same. -/
theorem release_build_same (dict : Bytes) (hdict : dict.length < 2 ^ 31) (flags : Nat) (matching : Bool) (cs : List PairCall)
    (hs : EachPairChunk (fun data => dict.length + data.length < 2 ^ 31 ∧ data.length + 64 < 2 ^ 31) cs)
    (hm : misused true (fun _ => true) false false cs = false) :
    Release.pairCalls (Encoder.newPair dict flags matching) cs = (Encoder.newPair dict flags matching).pairCalls cs ∧
      (Release.pairCalls (Encoder.newPair dict flags matching) cs).2 = none := by
  have hn : ((Encoder.newPair dict flags matching).pairCalls cs).2 = none := by
    by_cases hb : flags &&& 4 = 0
    · rw [debug_build_exits_iff dict hdict flags hb matching cs hs, if_neg (by simp [hm])]
    · rw [debug_build_exits_iff_json dict hdict flags hb matching cs fun data h => (hs data h).1]
      have key : ∀ (cs : List PairCall) (i s s' : Bool), (s' = true → s = true) → misused true (fun _ => true) i s cs = false →
          misused (JsonWriter.isAscii dict) JsonWriter.isAscii i s' cs = false := by
        intro cs
        induction cs with
        | nil => intros; rfl
        | cons c cs ih =>
          intro i s s' hle h
          cases c with
          | init =>
            simp only [misused, Bool.or_eq_false_iff] at h ⊢
            exact ⟨h.1, ih true s s' hle h.2⟩
          | encoder c =>
            cases c with
            | start =>
              simp only [misused] at h ⊢
              exact ih i _ _ (by simp) h
            | finish =>
              simp only [misused] at h ⊢
              exact ih i _ _ (by simp) h
            | chunk data =>
              simp only [misused, Bool.or_eq_false_iff] at h ⊢
              refine ⟨?_, ih i s s' hle h.2⟩
              cases hs' : s' with
              | false => rfl
              | true =>
                have h1 := h.1
                rw [hle hs'] at h1
                cases i with
                | true => simp
                | false => cases h1
      rw [if_neg (by simp [key cs false false false (fun h => h) hm])]
  rcases builds_agree dict flags matching cs with h | ⟨h, _⟩
  · exact ⟨h, by rw [h]; exact hn⟩
  · rw [hn] at h; cases h

/-- The hypothesis is met by an initialised dictionary that is used for two encodings, and by an encoder that is started before the
dictionary is initialised; it is not met if there is no initialisation, or a second one. -/
example : misused true (fun _ => true) false false
      [.init, .encoder .start, .encoder (.chunk [1, 2]), .encoder .finish, .encoder .start, .encoder (.chunk [3]), .encoder .finish] = false ∧
    misused true (fun _ => true) false false [.encoder (.chunk [1]), .encoder .start, .init, .encoder (.chunk [1]), .encoder .finish] = false ∧
    misused true (fun _ => true) false false [.encoder .start, .encoder (.chunk [1])] = true ∧
    misused true (fun _ => true) false false [.init, .encoder .start, .init] = true := by decide

/-- C68: a second `Init` of a dictionary is refused in a release build, and changes nothing for the encoder. -/
theorem second_init_refused (dict : Bytes) (hdict : dict.length < 2 ^ 31) (flags : Nat) (matching : Bool) (cs : List PairCall) :
    ∃ replies, (Release.pairCalls (Encoder.newPair dict flags matching) (.init :: cs)).1 = ⟨true, []⟩ :: replies ∧
      Release.pairCalls (Encoder.newPair dict flags matching) (.init :: .init :: cs) =
        (⟨true, []⟩ :: ⟨false, []⟩ :: replies, (Release.pairCalls (Encoder.newPair dict flags matching) (.init :: cs)).2) := by
  obtain ⟨engine, hashed, h1, h2, h3⟩ := Engine.init_ok (dict := dict) (by simp only [int32Max]; omega)
  have h0 : (⟨dict, none⟩ : Engine).initCall = .ok (true, engine) := (Engine.initCall_first h1).1
  have hf : Release.initCall ⟨dict, none⟩ = .ok (true, engine) := Release.ok_of_agrees (Release.initCall_agrees _) h0
  have hc : Release.pairCall (Encoder.newPair dict flags matching) .init =
      .ok (⟨true, []⟩, { Encoder.newPair dict flags matching with engine }) := by
    simp only [Release.pairCall, show (Encoder.newPair dict flags matching).engine = ⟨dict, none⟩ from rfl, hf]
  have hc2 : Release.pairCall { Encoder.newPair dict flags matching with engine } .init =
      .ok (⟨false, []⟩, { Encoder.newPair dict flags matching with engine }) := by
    simp only [Release.pairCall, Release.initCall, h2]
  refine ⟨(Release.pairCalls { Encoder.newPair dict flags matching with engine } cs).1, ?_, ?_⟩
  · simp only [Release.pairCalls, hc]
  · simp only [Release.pairCalls, hc, hc2]

/-- C68, binary formats: what a release build does in whatever order the calls come. No call crashes; the replies are those of
`releaseProtocol`, and the window of a chunk is one that stands for the chunk, as in C34. -/
theorem release_build_protocol (dict : Bytes) (hdict : dict.length < 2 ^ 31) (flags : Nat) (hb : flags &&& 4 = 0) (matching : Bool) :
    ∃ window : Bytes → Bytes,
      (∀ cs, EachPairChunk (fun data => dict.length + data.length < 2 ^ 31 ∧ data.length + 64 < 2 ^ 31) cs →
        Release.pairCalls (Encoder.newPair dict flags matching) cs =
          (releaseProtocol (Writer.header flags) window false false cs, none)) ∧
      window [] = [] ∧
      ∀ data, data ≠ [] → dict.length + data.length < 2 ^ 31 → data.length + 64 < 2 ^ 31 →
        (window data).length ≤ data.length + 44 ∧ Layout (flags &&& 1 != 0) (flags &&& 2 != 0) data (window data) ∧
        ∀ s prev, data.length ≤ s.maxWindow → prev.length + data.length ≤ s.maxFile →
          WindowCode defaultCoding (flags != 0) strict s dict prev (window data) data := by
  obtain ⟨m, u⟩ := Encoder.usable
  obtain ⟨engine, window, h1, h2, h3, h4⟩ := encoder_protocol dict hdict flags hb matching
  have same : ∀ data, dict.length + data.length < 2 ^ 31 ∧ data.length + 64 < 2 ^ 31 →
      (Encoder.new engine flags matching).window m data = window data := by
    intro data hs
    obtain ⟨e1, k1⟩ := h2 [.start, .chunk data] (by intro d hd; simp at hd; subst hd; exact hs)
    obtain ⟨e2, k2, _⟩ := Encoder.calls_ok u (e0 := Encoder.new engine flags matching) (dict := dict) h1 (Engine.initCall_first h1).2.2
      (Encoder.new_inv hb m) (cs := [.start, .chunk data]) (by intro d hd; simp at hd; subst hd; exact hs)
    rw [k1] at k2
    simp only [Except.ok.injEq, Prod.mk.injEq, protocol, List.cons.injEq, EncoderReply.mk.injEq, and_true, true_and] at k2
    exact k2.1.2.symm
  refine ⟨window, fun cs hs => ?_, h3, h4⟩
  have k := Encoder.release_any u h1 cs false (Encoder.newPair dict flags matching) (Encoder.new_inv hb m) hs
  rw [k, show (Encoder.newPair dict flags matching).allowed = false from rfl]
  have key : ∀ (cs : List PairCall) (i s : Bool),
      EachPairChunk (fun data => dict.length + data.length < 2 ^ 31 ∧ data.length + 64 < 2 ^ 31) cs →
      releaseProtocol (Writer.header flags) ((Encoder.new engine flags matching).window m) i s cs =
        releaseProtocol (Writer.header flags) window i s cs := by
    intro cs
    induction cs with
    | nil => intros; rfl
    | cons c cs ih =>
      intro i s hs
      have hs' := fun i s => ih i s (fun data hm => hs data (List.mem_cons_of_mem _ hm))
      cases c with
      | init => simp only [releaseProtocol, hs']
      | encoder c =>
        cases c with
        | start => simp only [releaseProtocol, hs']
        | finish => simp only [releaseProtocol, hs']
        | chunk data => simp only [releaseProtocol, hs', same data (hs data (List.mem_cons_self ..))]
  rw [key cs false false hs]

/-- Calls out of order: chunks before the encoding is started, and before the dictionary is initialised; a second `Init`; and an end of an
encoding that has not begun. -/
example : releaseProtocol [0x53] (fun d => d ++ d) false false
      [.encoder (.chunk [1]), .encoder .start, .encoder (.chunk [2]), .init, .encoder (.chunk [3]), .init, .encoder .finish, .encoder .finish] =
    [⟨false, []⟩, ⟨true, [0x53]⟩, ⟨true, []⟩, ⟨true, []⟩, ⟨true, [3, 3]⟩, ⟨false, []⟩, ⟨true, []⟩, ⟨false, []⟩] := by decide

/-- C68: no call of a release build crashes, in all formats and in whatever order the calls come. -/
theorem release_build_never_crashes (dict : Bytes) (hdict : dict.length < 2 ^ 31) (flags : Nat) (matching : Bool) (cs : List PairCall)
    (hs : EachPairChunk (fun data => dict.length + data.length < 2 ^ 31 ∧ data.length + 64 < 2 ^ 31) cs) :
    (Release.pairCalls (Encoder.newPair dict flags matching) cs).2 = none := by
  by_cases hb : flags &&& 4 = 0
  · obtain ⟨window, h, _⟩ := release_build_protocol dict hdict flags hb matching
    rw [h cs hs]
  · obtain ⟨engine, hashed, h1, _⟩ := Engine.init_ok (dict := dict) (by simp only [int32Max]; omega)
    exact Encoder.release_any_json hdict h1 cs false _ rfl rfl ⟨{}, by simp [Encoder.newPair, Encoder.new, createWriter, hb]⟩
      fun data h => (hs data h).1

/-- C68, what becomes of it if the dictionary has not been initialised: in a release build every call succeeds, the delta is no more
than a file header, and the chunks are lost. -/
theorem uninitialised_dictionary_loses_data (dict : Bytes) (flags : Nat) (hb : flags &&& 4 = 0) (matching : Bool) (chunks : List Bytes) :
    Release.pairCalls (Encoder.newPair dict flags matching)
        ([.encoder .start] ++ chunks.map (fun c => .encoder (.chunk c)) ++ [.encoder .finish]) =
      ([⟨true, Writer.header flags⟩] ++ chunks.map (fun _ => ⟨true, []⟩) ++ [⟨true, []⟩], none) ∧
    ∀ (s : Settings) (other : Bytes) (cs : List Bytes), cs.flatten = Writer.header flags →
      (configured s).decode other cs = some [] := by
  constructor
  · obtain ⟨m, u⟩ := Encoder.usable
    obtain ⟨w, k1, k2, k3, k4⟩ := Writer.init_ready u (w := Writer.new (flags &&& 1 != 0)) dict.length
      rfl rfl (Or.inl rfl) (Or.inl rfl) rfl rfl rfl
    have hstart : Release.pairCall (Encoder.newPair dict flags matching) (.encoder .start) =
        .ok (⟨true, Writer.header flags⟩,
          { Encoder.newPair dict flags matching with coder := .binary w, allowed := true }) := by
      simp only [Release.pairCall, Release.start, Encoder.newPair, Encoder.new, createWriter, hb, k1, Except.map, ne_eq,
        not_true_eq_false, if_false]
    have key : ∀ (chunks : List Bytes) (w : Writer),
        Release.pairCalls { Encoder.newPair dict flags matching with coder := .binary w, allowed := true }
          (chunks.map (fun c => .encoder (.chunk c)) ++ [.encoder .finish]) =
        (chunks.map (fun _ => ⟨true, []⟩) ++ [⟨true, []⟩], none) := by
      intro chunks
      induction chunks with
      | nil => intro w; rfl
      | cons c chunks ih =>
        intro w
        have hc : ∃ w', Release.pairCall { Encoder.newPair dict flags matching with coder := .binary w, allowed := true }
            (.encoder (.chunk c)) =
            .ok (⟨true, []⟩, { Encoder.newPair dict flags matching with coder := .binary w', allowed := true }) := by
          simp [Release.pairCall, Release.chunk, Encoder.newPair, Encoder.new, Release.engineEncode, Release.writerCalls, Except.map]
        obtain ⟨w', hc⟩ := hc
        simp only [List.map_cons, List.cons_append, Release.pairCalls, hc, ih w']
    simp only [List.cons_append, List.nil_append, Release.pairCalls, hstart, key chunks w]
  · intro s other cs hcs
    refine accepted_in_any_chunks s other [] cs ?_
    rw [hcs, ← List.append_nil (Writer.header flags)]
    by_cases h : flags = 0
    · simp only [Writer.header, if_pos h]
      exact .mk (FileHeaderCode.plain (v := 0x00) (Or.inl rfl) (by decide)) .nil
    · simp only [Writer.header, if_neg h]
      exact .mk (FileHeaderCode.plain (v := 0x53) (Or.inr rfl) (by decide)) .nil

/-- C68: a debug build does not get far with a dictionary of 2^31 bytes or more. -/
theorem huge_dictionary_exits (dict : Bytes) (h1 : 2 ^ 31 ≤ dict.length) (h2 : dict.length ≤ 2 ^ 32 - 16) (flags : Nat)
    (matching : Bool) (cs : List PairCall) :
    (Encoder.newPair dict flags matching).pairCalls (.init :: cs) = ([], some .assertion) := by
  have : (Encoder.newPair dict flags matching).pairCall .init = .error .assertion := by
    simp only [Encoder.pairCall]
    rw [show (Encoder.newPair dict flags matching).engine = ⟨dict, none⟩ from rfl, Engine.initCall_huge h1 h2]
  simp only [Encoder.pairCalls, this]

/-- C68: a release build does, with every call successful; but the length of the source segment is missing from the window, and no
decoder reads the delta, with whatever dictionary and limits. (Here for a chunk of 1 to 7 bytes in the usual layout.) -/
theorem huge_dictionary_unreadable (dict : Bytes) (h1 : 2 ^ 31 ≤ dict.length) (h2 : dict.length < 2 ^ 32) (flags : Nat)
    (hb : flags &&& 4 = 0) (hil : flags &&& 1 = 0) (matching : Bool) (data : Bytes) (hd : data ≠ []) (hs : data.length < 8) :
    ∃ window, Release.pairCalls (Encoder.newPair dict flags matching)
        [.init, .encoder .start, .encoder (.chunk data), .encoder .finish] =
      ([⟨true, []⟩, ⟨true, Writer.header flags⟩, ⟨true, window⟩, ⟨true, []⟩], none) ∧
      ∀ (s : Settings) (other : Bytes) (cs : List Bytes), cs.flatten = Writer.header flags ++ window →
        (configured s).decode other cs = none := by
  obtain ⟨m, u⟩ := Encoder.usable
  obtain ⟨bh, hbh⟩ := Release.create_huge h1 h2
  have hinit : Release.pairCall (Encoder.newPair dict flags matching) .init =
      .ok (⟨true, []⟩, { Encoder.newPair dict flags matching with engine := ⟨dict, some bh⟩ }) := by
    simp [Release.pairCall, Release.initCall, Encoder.newPair, Encoder.new, hbh]
  obtain ⟨w, k1, k2, k3, k4⟩ := Writer.init_ready u (w := Writer.new (flags &&& 1 != 0)) dict.length
    rfl rfl (Or.inl rfl) (Or.inl rfl) rfl rfl rfl
  have hstart : Release.pairCall { Encoder.newPair dict flags matching with engine := ⟨dict, some bh⟩ } (.encoder .start) =
      .ok (⟨true, Writer.header flags⟩,
        { Encoder.newPair dict flags matching with engine := ⟨dict, some bh⟩, coder := .binary w, allowed := true }) := by
    simp only [Release.pairCall, Release.start, Encoder.newPair, Encoder.new, createWriter, hb, k1, Except.map, ne_eq,
      not_true_eq_false, if_false]
  generalize hw1 : (if flags &&& 2 ≠ 0 then w.addChecksum (computeAdler32 data) else w) = w1
  have hr1 : Writer.Ready defaultCoding 8 m dict.length w1 := by
    rw [← hw1]; split
    · exact k4.addChecksum _
    · exact k4
  have hil1 : w1.interleaved = false := by
    have : w.interleaved = false := by rw [k2]; simp [Writer.new, hil]
    rw [← hw1]; split
    · exact this
    · exact this
  have hck1 : ∀ v, w1.checksum = some v → v < 2 ^ 32 := by
    intro v hv
    rw [← hw1] at hv
    split at hv
    · simp only [Writer.addChecksum, Option.some.injEq] at hv
      rw [← hv, computeAdler32_eq data (by omega)]
      exact Writer.adlerOf_lt data
    · rw [k3] at hv; cases hv
  obtain ⟨w2, lb, db, rest, hcalls, hlb, hdb, b, hb1, hb7⟩ := Release.window_huge u hr1 hil1 hck1 h1 h2 hd hs
  generalize hwin : [if w1.checksum.isSome then (0x05 : UInt8) else 0x01] ++ [0x00] ++ lb ++ db ++ [0x00] ++ db ++ rest = window at hcalls
  refine ⟨window, ?_, ?_⟩
  · have hchunk : Release.pairCall
        { Encoder.newPair dict flags matching with engine := ⟨dict, some bh⟩, coder := .binary w, allowed := true }
        (.encoder (.chunk data)) =
        .ok (⟨true, window⟩,
          { Encoder.newPair dict flags matching with engine := ⟨dict, some bh⟩, coder := .binary w2, allowed := true }) := by
      have he : Release.engineEncode ⟨dict, some bh⟩ matching data = .ok [.add data, .output] := by
        have hp : 0 < data.length := List.length_pos_iff.2 hd
        simp only [Release.engineEncode, kBlockSize, if_neg (show ¬ data.length = 0 by omega),
          if_pos (show data.length < 16 by omega), Engine.addUnmatchedRemainder, if_pos (show data.length > 0 from hp)]
        rfl
      have hc : ∀ e : Encoder, e = ⟨⟨dict, some bh⟩, .binary w, flags, matching, true⟩ →
          Release.chunk e data = .ok (true, window, { e with coder := .binary w2 }) := by
        rintro e rfl
        simp only [Release.chunk, Bool.not_true, Bool.false_eq_true, if_false, he, hw1, hcalls]
      have hm : ∀ (e : Encoder) (r : Bool × Bytes × Encoder), Release.chunk e data = .ok r →
          Release.pairCall e (.encoder (.chunk data)) = .ok (⟨r.1, r.2.1⟩, r.2.2) := by
        intro e r h
        simp only [Release.pairCall, h]
        rfl
      exact hm _ _ (hc _ rfl)
    simp only [Release.pairCalls, hinit, hstart, hchunk]
    rfl
  · intro s other cs hcs
    refine refused_in_any_chunks s other cs ?_
    rintro ⟨A, hA⟩
    rw [hcs] at hA
    have hh : FileHeaderCode library (Writer.header flags) (flags != 0) defaultCoding := by
      by_cases h : flags = 0
      · simp only [Writer.header, if_pos h]; subst h
        exact FileHeaderCode.plain (v := 0x00) (Or.inl rfl) (by decide)
      · simp only [Writer.header, if_neg h]
        rw [show (flags != 0) = true by simpa using h]
        exact FileHeaderCode.plain (v := 0x53) (Or.inr rfl) (by decide)
    refine no_file_ever (ws := []) (v := window) (T := []) (s := s) hh .nil (by rw [← hwin]; simp) (fun s2 w2 T2 r h e => ?_) hA
    rw [← hwin] at e
    exact Release.window_refused (by cases w1.checksum <;> simp <;> decide) hlb hdb hb1 hb7 h e

/-- The hypotheses are met, by 2^31 zeros and a chunk of three bytes. -/
example : 2 ^ 31 ≤ (List.replicate (2 ^ 31) (0 : UInt8)).length ∧ (List.replicate (2 ^ 31) (0 : UInt8)).length ≤ 2 ^ 32 - 16 ∧
    2 &&& 4 = 0 ∧ 2 &&& 1 = 0 ∧ ([1, 2, 3] : Bytes) ≠ [] ∧ ([1, 2, 3] : Bytes).length < 8 := by
  rw [List.length_replicate]; decide

end Vcd.Props
