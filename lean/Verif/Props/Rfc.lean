import Verif.Proof.RfcProps
import Verif.Proof.RfcComplete
import Verif.Proof.RfcUnique
import Verif.Props.Decoder

/-!
# C06 - C09, C13, C15: the decoder and the grammar of delta files

`FileCode tol s dict delta T` (`Verif.Spec.Rfc`) says that `delta` stands for `T` relative to `dict`:
with `rfc` as RFC 3284 has it, with `library` as this library takes it, with `strict` as both do.
`configured s` is a new decoder with the settings `s`; by `decoder_reuse_partial` (C12) what holds
for it holds for a used one.
-/

namespace Vcd.Props
open Vcd Vcd.Spec

/-! ## C07 -/

/-- C07 up to the points on which `library` deviates from the RFC: if a delta is accepted, in whatever
chunks, then it is a header and a sequence of windows as the RFC and the SDCH extensions lay them out,
and the output is the concatenation of their targets. The deviations are real: `empty_delta_accepted`,
`dangling_opcode_accepted`, `interleaved_excess_accepted`, `rfc_table_refused`. -/
theorem accepted_follows_grammar_partial (s : Settings) (dict T : Bytes) (cs : List Bytes)
    (h : (configured s).decode dict cs = some T) : FileCode library s dict cs.flatten T :=
  decode_sound rfl rfl rfl rfl rfl h

/-- C07, C08 exactly: fed byte by byte, the decoder accepts precisely the files of the `library`
grammar, and outputs what they stand for. -/
theorem accepts_exactly_library (s : Settings) (dict delta T : Bytes) :
    (configured s).decode dict (delta.map fun b => [b]) = some T ↔ FileCode library s dict delta T := by
  have e : (delta.map fun b => [b]).flatten = delta := singles_flatten delta
  constructor
  · intro h
    have := decode_sound (s := s) (d := configured s) rfl rfl rfl rfl rfl h
    rwa [e] at this
  · intro h
    exact decode_complete_singles (d := configured s) rfl rfl rfl rfl rfl h rfl rfl (by decide)

/-- C07, C08 exactly, for the standard format without a custom code table in any chunks. -/
theorem standard_accepts_exactly_library (s : Settings) (dict T : Bytes) (cs : List Bytes)
    (hx : ¬ Extended cs.flatten) (hp : ¬ CustomTable cs.flatten) :
    (configured s).decode dict cs = some T ↔ FileCode library s dict cs.flatten T := by
  rw [← accepts_exactly_library s dict _ T]
  have e : (cs.flatten.map fun b => [b]).flatten = cs.flatten := singles_flatten _
  rw [decode_std (d := configured s) rfl hx hp e]

/-- The grammar is not ambiguous. -/
theorem grammar_unambiguous (s : Settings) (dict delta T T' : Bytes)
    (h : FileCode library s dict delta T) (h' : FileCode library s dict delta T') : T = T' := by
  have h1 := decode_complete_singles (d := configured s) rfl rfl rfl rfl rfl h rfl rfl (by decide)
  have h2 := decode_complete_singles (d := configured s) rfl rfl rfl rfl rfl h' rfl rfl (by decide)
  rw [h1] at h2
  exact Option.some.inj h2

example : FileCode library {} [] stdDelta [0x61, 0x62, 0x63] ∧ FileCode library {} [] interDelta [0x61, 0x62, 0x63] := by
  exact ⟨(accepts_exactly_library {} [] _ _).1 (by decide +kernel), (accepts_exactly_library {} [] _ _).1 (by decide +kernel)⟩

/-- Against C07: no bytes at all are accepted as a delta file. -/
theorem empty_delta_accepted :
    ({} : Decoder).decode [] [] = some [] ∧ ¬ ∃ T, FileCode rfc {} [] [] T := by
  refine ⟨by decide +kernel, ?_⟩
  rintro ⟨T, h⟩
  generalize hb : ([] : Bytes) = b at h
  cases h with
  | mk hH _ => cases hH <;> simp at hb
  | empty h => exact absurd h (by decide)

/-- Against C07: the target length is 1 and the only opcode is 163, which stands for an ADD of one byte
followed by a COPY of four. The COPY is dropped. -/
theorem dangling_opcode_accepted :
    let delta : Bytes := [0xD6, 0xC3, 0xC4, 0, 0, 0, 7, 1, 0, 1, 1, 0, 0x61, 0xA3]
    ({} : Decoder).decode [] [delta] = some [0x61] ∧ ¬ ∃ T, FileCode rfc {} [] delta T := by
  refine ⟨by decide +kernel, ?_⟩
  rintro ⟨T, h⟩
  obtain ⟨w, r, T1, T2, e1, _, hw, _⟩ := (h.windows rfl).first (by simp)
  obtain ⟨hT, data, inst, addr, items, ops, surplus, k1, k2, k3, k4, k5, k6, k7, k8⟩ :=
    hw.small e1.symm (by decide) (by decide) (by decide) (by decide) (by decide)
  have hs : surplus = 0 := k5.resolve_right (fun h => absurd h.1 (by decide))
  subst hs
  unfold SectionCode at k8
  rw [if_neg (by simp)] at k8
  match data, k2 with
  | [a], _ =>
    match inst, k3 with
    | [i], _ =>
      match addr, k4 with
      | [], _ =>
        simp only [List.cons_append, List.nil_append, List.cons.injEq] at k1
        obtain ⟨rfl, rfl, rfl⟩ := k1
        have hlen := execOps_length ops []
        rw [k7, hT] at hlen
        cases k6 with
        | nil => simp at k8
        | @cons _ _ op i1 o1 i2 o2 items ops h1 h2 h3 =>
          have hop : op = 163 := by
            have := k8.2.1
            simp only [List.flatMap_cons, Item.inst, List.cons_append, List.nil_append, List.cons.injEq] at this
            exact this.1.symm
          subst hop
          have hsz : sizes (o1 ++ o2 ++ ops) = 1 := by simpa using hlen.symm
          have h4 : 4 ≤ sizes o2 := by
            have hi : (defaultCoding.table.second 163).inst.toNat = 3 := by decide +kernel
            have hsize : (defaultCoding.table.second 163).size.toNat = 4 := by decide +kernel
            cases h2 with
            | noop h => rw [hi] at h; simp at h
            | add h => rw [hi] at h; simp at h
            | run h => rw [hi] at h; simp at h
            | copy h hsc =>
              rcases hsc with ⟨h0, _⟩ | ⟨_, _, h0⟩
              · rw [h0] at hsize; simp at hsize
              · rw [h0, hsize]; simp [sizes, Op.size]
          simp only [sizes, List.map_append, List.sum_append] at hsz h4
          omega
        | dangling h => exact absurd h (by decide)

/-- Against C07: an interleaved window that announces five bytes of instructions, and ends after
four. -/
theorem interleaved_excess_accepted :
    let delta : Bytes := [0xD6, 0xC3, 0xC4, 0x53, 0, 0, 10, 3, 0, 0, 5, 0, 4, 0x61, 0x62, 0x63]
    ({} : Decoder).decode [] [delta] = some [0x61, 0x62, 0x63] ∧ ¬ ∃ T, FileCode rfc {} [] delta T := by
  refine ⟨by decide +kernel, ?_⟩
  rintro ⟨T, h⟩
  obtain ⟨w, r, T1, T2, e1, _, hw, _⟩ := (h.windows rfl).first (by simp)
  obtain ⟨hT, data, inst, addr, items, ops, surplus, k1, k2, k3, k4, k5, _⟩ :=
    hw.small e1.symm (by decide) (by decide) (by decide) (by decide) (by decide)
  have hs : surplus = 0 := k5.resolve_right (fun h => absurd h.1 (by decide))
  have hlen := congrArg List.length k1
  simp only [List.length_cons, List.length_nil, List.length_append] at hlen
  have : inst.length + surplus = 5 := k3
  omega

/-! ## C08 -/

/-- C08 up to the one point of the RFC that the library does not take: instructions that produce
nothing, after the target is complete (`trailing_instruction_refused`). A conforming delta is decoded
to the target it stands for, however it is cut into chunks. `s` are the limits the decoder has
been given; conforming includes respecting them. -/
theorem conforming_accepted_partial (s : Settings) (dict delta T : Bytes) (h : FileCode strict s dict delta T)
    (cs : List Bytes) (hcs : cs.flatten = delta) : (configured s).decode dict cs = some T :=
  one_call_then_any_chunks (configured s) rfl dict delta T
    (decode_complete (d := configured s) rfl rfl rfl rfl rfl h rfl rfl rfl (by decide)) cs hcs

/-- A conforming delta, derived from the grammar alone: two windows, `abc` and a COPY of it with
overlap from the target of the first. -/
theorem conforming_example : FileCode strict {} []
    [0xD6, 0xC3, 0xC4, 0, 0, 0, 9, 3, 0, 3, 1, 0, 0x61, 0x62, 0x63, 4,
      2, 3, 0, 8, 7, 0, 0, 2, 1, 19, 7, 0]
    [0x61, 0x62, 0x63, 0x61, 0x62, 0x63, 0x61, 0x62, 0x63, 0x61] := by
  refine .mk (hdr := [0xD6, 0xC3, 0xC4, 0, 0])
    (ws := [0, 9, 3, 0, 3, 1, 0, 0x61, 0x62, 0x63, 4] ++ ([2, 3, 0, 8, 7, 0, 0, 2, 1, 19, 7, 0] ++ []))
    (T := [0x61, 0x62, 0x63] ++ ([0x61, 0x62, 0x63, 0x61, 0x62, 0x63, 0x61] ++ [])) (.plain (v := 0) (hi := 0) (Or.inl rfl) rfl) ?_
  refine .cons ?_ (.cons ?_ .nil)
  · refine .mk (ind := 0) (di := 0) (seg := []) (src := []) (dl := [9]) (tlen := [3]) (dlen := [3]) (ilen := [1])
      (alen := [0]) (cks := []) (data := [0x61, 0x62, 0x63]) (inst := [4]) (addr := [])
      (items := [.opcode 4, .size [], .data [0x61, 0x62, 0x63]]) (ops := [.add [0x61, 0x62, 0x63]]) (surplus := 0)
      (.none rfl) ?_ (Or.inr (Or.inr ⟨⟨[.opcode 4, .size []], [0x61, 0x62, 0x63], Or.inl rfl⟩,
        ⟨[], _, rfl, by decide⟩⟩)) rfl (by decide) (by decide) ⟨rfl, rfl, rfl⟩ (Or.inl rfl)
      (numCode_byte' rfl (by decide)) rfl (numCode_byte' rfl (by decide)) (numCode_byte' rfl (by decide))
      (numCode_byte' rfl (by decide)) rfl (numCode_byte' rfl (by decide)) (Or.inr (Or.inl (by decide))) (by decide)
    exact .cons (op := 4) (i1 := [.size [], .data [0x61, 0x62, 0x63]]) (o1 := [.add [0x61, 0x62, 0x63]])
      (i2 := []) (o2 := []) (items := []) (ops := [])
      (.add (by decide +kernel) (Or.inr ⟨by decide +kernel, rfl, by decide +kernel⟩))
      (.noop (by decide +kernel)) .nil
  · refine WindowCode.mk (c := defaultCoding) (prev := [] ++ [0x61, 0x62, 0x63]) (s := {}) (ext := false) (ind := 2) (di := 0) (seg := [3] ++ [0]) (src := [0x61, 0x62, 0x63]) (dl := [8]) (tlen := [7]) (dlen := [0])
      (ilen := [2]) (alen := [1]) (cks := []) (data := []) (inst := [19, 7]) (addr := [0])
      (items := [.opcode 19, .size [7], .address [0]]) (ops := [.copy 0 7]) (surplus := 0)
      (.target (prev := [] ++ [0x61, 0x62, 0x63]) (lb := [3]) (pb := [0]) (len := 3) (pos := 0) rfl rfl (numCode_byte' rfl (by decide))
        (numCode_byte' rfl (by decide)) (by decide)) ?_
      (Or.inr (Or.inr ⟨⟨[.opcode 19, .size [7]], [0], Or.inr rfl⟩, ⟨[], _, rfl, by decide⟩⟩))
      (T := [0x61, 0x62, 0x63, 0x61, 0x62, 0x63, 0x61]) rfl (by decide) (by decide) ⟨rfl, rfl, rfl⟩ (Or.inl rfl)
      (numCode_byte' rfl (by decide)) rfl (numCode_byte' rfl (by decide)) (numCode_byte' rfl (by decide))
      (numCode_byte' rfl (by decide)) rfl (numCode_byte' rfl (by decide)) (Or.inr (Or.inl (by decide))) (by decide)
    refine .cons (op := 19) (i1 := [.size [7], .address [0]]) (o1 := [.copy 0 7])
      (i2 := []) (o2 := []) (items := []) (ops := [])
      (.copy (by decide +kernel) (Or.inl ⟨by decide +kernel, numCode_byte' rfl (by decide)⟩) ?_ (by decide) (by decide))
      (.noop (by decide +kernel)) .nil
    exact .self (numCode_byte' (b := 0) rfl (by decide)).1 (by decide)

example : (configured {}).decode [] [[0xD6, 0xC3], [0xC4, 0, 0, 0, 9, 3, 0, 3, 1, 0, 0x61, 0x62], [0x63, 4,
      2, 3, 0, 8, 7, 0, 0], [2, 1, 19, 7, 0]] =
    some [0x61, 0x62, 0x63, 0x61, 0x62, 0x63, 0x61, 0x62, 0x63, 0x61] :=
  conforming_accepted_partial {} [] _ _ conforming_example _ rfl

/-- Against C08: after `a` is complete, an ADD of size 0 (opcode 1, size 0) follows; the RFC attaches no
meaning to where the last byte is produced, but the library refuses the window. -/
theorem trailing_instruction_refused :
    let delta : Bytes := [0xD6, 0xC3, 0xC4, 0, 0, 0, 9, 1, 0, 1, 3, 0, 0x61, 2, 1, 0]
    FileCode rfc {} [] delta [0x61] ∧ ({} : Decoder).decode [] [delta] = none := by
  refine ⟨?_, by decide +kernel⟩
  refine .mk (hdr := [0xD6, 0xC3, 0xC4, 0, 0]) (ws := [0, 9, 1, 0, 1, 3, 0, 0x61, 2, 1, 0] ++ []) (T := [0x61] ++ [])
    (.plain (v := 0) (hi := 0) (Or.inl rfl) rfl) ?_
  refine .cons ?_ .nil
  refine .mk (ind := 0) (di := 0) (seg := []) (src := []) (dl := [9]) (tlen := [1]) (dlen := [1]) (ilen := [3])
    (alen := [0]) (cks := []) (data := [0x61]) (inst := [2, 1, 0]) (addr := [])
    (items := [.opcode 2, .size [], .data [0x61], .opcode 1, .size [0], .data []]) (ops := [.add [0x61], .add []])
    (surplus := 0) (.none rfl) ?_ (Or.inl rfl) rfl (by decide) (by decide) ⟨rfl, rfl, rfl⟩ (Or.inl rfl)
    (numCode_byte' rfl (by decide)) rfl (numCode_byte' rfl (by decide)) (numCode_byte' rfl (by decide))
    (numCode_byte' rfl (by decide)) rfl (numCode_byte' rfl (by decide)) (Or.inr (Or.inl (by decide))) (by decide)
  refine .cons (op := 2) (i1 := [.size [], .data [0x61]]) (o1 := [.add [0x61]])
      (i2 := []) (o2 := []) (items := [.opcode 1, .size [0], .data []]) (ops := [.add []])
      (.add (by decide +kernel) (Or.inr ⟨by decide +kernel, rfl, by decide +kernel⟩))
      (.noop (by decide +kernel)) ?_
  exact .cons (op := 1) (i1 := [.size [0], .data []]) (o1 := [.add []])
      (i2 := []) (o2 := []) (items := []) (ops := [])
      (.add (by decide +kernel) (Or.inl ⟨by decide +kernel, numCode_byte' rfl (by decide)⟩))
      (.noop (by decide +kernel)) .nil

/-! ## C06, C09, C13, C15: what has been output, whether the delta is accepted or not -/

/-- C06, C09, C13: after any chunks, of which the last ones may have been refused, either nothing has been
output, or the bytes fed are a file header, some windows (of the grammar) and a rest. What has been
output is the concatenation of the targets of these windows, and at most a window size limit more, which
belongs to a window that is not complete. -/
theorem output_is_windows (s : Settings) (dict : Bytes) (cs : List Bytes)
    (rs : List DecoderReply) (d : Decoder)
    (h : (configured s).calls (.start dict :: cs.map .chunk) = .ok (rs, d)) :
    allOut rs = [] ∨ ∃ hdr ext c u parts p, cs.flatten = hdr ++ parts.flatMap Prod.fst ++ u ∧
      FileHeaderCode library hdr ext c ∧ allOut rs = targets parts ++ p ∧ p.length ≤ s.maxWindow ∧
      ∀ a w T b, parts = a ++ (w, T) :: b → WindowCode c ext library s dict (targets a) w T := by
  have hcall : (configured s).call (.start dict) = .ok (⟨true, []⟩, (configured s).start dict) := rfl
  obtain ⟨r, d1, rs', h1, h2, rfl⟩ := calls_cons_ok h
  rw [hcall] at h1
  simp only [Except.ok.injEq, Prod.mk.injEq] at h1
  obtain ⟨rfl, rfl⟩ := h1
  have hf := Fed.start (configured s) rfl dict
  have := (FileTrack.start (s := s) (tol := library) (configured s) rfl rfl rfl rfl rfl dict).calls rfl rfl rfl hf h2
  have hall : allOut (⟨true, []⟩ :: rs') = allOut rs' := by simp [allOut]
  rw [hall]
  simp only [List.nil_append] at this
  cases this with
  | header out => exact Or.inl out
  | @windows hdr ws u T p ext c hH bytes windows out size =>
    obtain ⟨parts, e1, e2, e3⟩ := windows.parts
    refine Or.inr ⟨hdr, ext, c, u, parts, p, by rw [← bytes, e1], hH, by rw [out, e2], size, ?_⟩
    intro a w T b hab
    exact e3 a w T b hab

/-- C06: no window of the grammar, hence by `output_is_windows` no window completed by the decoder, is
larger than the limit, however its header is read. -/
theorem window_limit_respected (c : Coding) (ext : Bool) (s : Settings) (dict prev w T : Bytes)
    (h : WindowCode c ext library s dict prev w T) (R : Reading w) :
    varintValue R.tlen = T.length ∧ T.length ≤ s.maxWindow ∧ prev.length + T.length ≤ s.maxFile := by
  refine ⟨(h.reading R).1.2.1, ?_⟩
  cases h with
  | mk _ _ _ _ h1 h2 => exact ⟨h1, h2⟩

/-- C09: in the extended format, a window of the grammar, hence by `output_is_windows` a window
completed by the decoder, whose indicator announces a checksum has the Adler-32 of its target there,
however its header is read. -/
theorem checksum_matches (c : Coding) (s : Settings) (dict prev w T : Bytes)
    (h : WindowCode c true library s dict prev w T) (R : Reading w) (hc : R.ind &&& 4 ≠ 0) (hv : IsVarint R.cks) :
    varintValue R.cks = adlerOf T := (h.reading R).2.2 rfl hc hv

/-- C15: with `SetAllowVcdTarget(false)`, no window of the grammar, hence by `output_is_windows` no window
completed by the decoder, takes its source from target data. -/
theorem no_target_window (c : Coding) (ext : Bool) (s : Settings) (hs : s.allowTarget = false) (dict prev w T : Bytes)
    (h : WindowCode c ext library s dict prev w T) (R : Reading w) : R.ind &&& 2 = 0 := by
  have key : ∀ b : UInt8, b &&& 3 = 0 ∨ b &&& 3 = 1 → b &&& 2 = 0 := by
    apply forall_byte; decide +kernel
  rcases (h.reading R).2.1 with h | h | ⟨_, h⟩
  · exact key _ (Or.inl h)
  · exact key _ (Or.inr h)
  · rw [hs] at h; simp at h

/-- C15: the same, as seen from outside. After a complete delta, a chunk starting with a window
indicator that has the VCD_TARGET bit is refused, and outputs nothing. -/
theorem target_window_refused (s : Settings) (hs : s.allowTarget = false) (dict T : Bytes) (cs : List Bytes)
    (hne : cs.flatten ≠ []) (h : (configured s).decode dict cs = some T)
    (x : UInt8) (b : Bytes) (hx : x &&& 2 ≠ 0) :
    ∃ rs d, (configured s).calls (.start dict :: (cs ++ [x :: b]).map .chunk) = .ok (rs ++ [⟨false, []⟩], d) := by
  obtain ⟨e, h1, L, h2⟩ := target_chunk (s := s) (d := configured s) rfl rfl rfl rfl rfl hs hne h hx (b := b)
  obtain ⟨rs, h3, h4, h5⟩ := feed_calls h1
  have hc : e.call (.chunk (x :: b)) = .ok (⟨false, []⟩, { top := L, nested := [] }) := by
    simp only [Decoder.call, decodeChunk_eq, h2]
  have hcall : (configured s).call (.start dict) = .ok (⟨true, []⟩, (configured s).start dict) := rfl
  refine ⟨⟨true, []⟩ :: rs, { top := L, nested := [] }, ?_⟩
  rw [calls_cons hcall, List.map_append, calls_append_of h3 (rs2 := [⟨false, []⟩]) (d2 := { top := L, nested := [] })]
  · rfl
  · rw [List.map_cons, calls_cons hc]; rfl

/-- C15: the target data kept between calls is at most one window. -/
theorem retained_target_bounded (s : Settings) (hs : s.allowTarget = false) (dict : Bytes) (cs : List Bytes)
    (rs : List DecoderReply) (d : Decoder)
    (h : (configured s).calls (.start dict :: cs.map .chunk) = .ok (rs, d)) : d.top.decoded.length ≤ s.maxWindow := by
  have hcall : (configured s).call (.start dict) = .ok (⟨true, []⟩, (configured s).start dict) := rfl
  obtain ⟨r, d1, rs', h1, h2, rfl⟩ := calls_cons_ok h
  rw [hcall] at h1
  simp only [Except.ok.injEq, Prod.mk.injEq] at h1
  obtain ⟨rfl, rfl⟩ := h1
  rcases calls_feed (Fed.start (configured s) rfl dict) h2 with ⟨o, h3⟩ | h3
  · exact retained (s := s) (d := configured s) rfl rfl rfl rfl rfl hs h3
  · rw [h3]; simp

/-- A delta with a custom code table, which is the default one, made of a window that copies 1535 bytes of it and a window
that copies the last byte, a zero, from the target data of the first one; then a window for three bytes. -/
def tableFromTarget : Bytes :=
  [0xD6, 0xC3, 0xC4, 0, 2, 4, 3,
   0xD6, 0xC3, 0xC4, 0, 0,
   1, 0x8B, 0x7F, 0, 10, 0x8B, 0x7F, 0, 0, 3, 1, 19, 0x8B, 0x7F, 0,
   2, 1, 0x82, 0, 8, 1, 0, 0, 2, 1, 19, 1, 0,
   0, 9, 3, 0, 3, 1, 0, 0x61, 0x62, 0x63, 4]

/-- C15 is about the windows of the delta proper: `SetAllowVcdTarget(false)` does not reach the decoder that reads a custom
code table, so windows with VCD_TARGET are accepted there. -/
theorem nested_target_window_accepted :
    (configured { allowTarget := false }).decode [] [tableFromTarget] = some [0x61, 0x62, 0x63] := by
  decide +kernel

/-- C13: a truncated delta that is accepted as complete ends at a window boundary: the file is a header
and windows for `T'`, and the part cut off is windows for the rest of `T`. -/
theorem truncated_is_whole_windows (s : Settings) (dict T T' rest : Bytes) (full cs : List Bytes)
    (h : (configured s).decode dict full = some T)
    (hcs : cs.flatten ++ rest = full.flatten) (hne : cs.flatten ≠ []) (h' : (configured s).decode dict cs = some T') :
    ∃ hdr ext c ws T2, cs.flatten = hdr ++ ws ∧ T = T' ++ T2 ∧ FileHeaderCode library hdr ext c ∧
      Windows c ext library s dict [] ws T' ∧ Windows c ext library s dict T' rest T2 := by
  have h1 := decode_singles (d := configured s) rfl h
  rw [← hcs] at h1
  exact truncated_windows (s := s) (d := configured s) rfl rfl rfl rfl rfl hne h1 h'

/-! ## C39 -/

/-- C39 up to invalid tables (`invalid_table_ignored`): an accepted delta that announces a custom code
table is a file header with the sizes of the caches, a delta file for the 1536 bytes of a code table
relative to the default one, and windows. If that table is usable, the windows are decoded with
exactly that table; otherwise, with the default table. -/
theorem custom_table_used_partial (s : Settings) (dict T : Bytes) (cs : List Bytes) (hc : CustomTable cs.flatten)
    (h : (configured s).decode dict cs = some T) :
    ∃ (v hi : UInt8) (nb sb tdelta ws tb : Bytes) (near same : Nat) (t : CodeTable) (hb : tb.length = 1536),
      cs.flatten = [0xD6, 0xC3, 0xC4, v, hi] ++ nb ++ sb ++ tdelta ++ ws ∧
      NumCode nb near ∧ NumCode sb same ∧ FileCode library tableSettings defaultTable.toBytes tdelta tb ∧
      (ValidTable (near + same + 1) (CodeTable.ofBytes tb hb) → t = CodeTable.ofBytes tb hb) ∧
      (¬ ValidTable (near + same + 1) (CodeTable.ofBytes tb hb) → t = defaultTable) ∧
      Windows { table := t, near, same } (v == 0x53) library s dict [] ws T := by
  have hf := decode_sound (s := s) (left := defaultTable) (d := configured s) rfl rfl rfl rfl rfl h
  generalize hb : cs.flatten = b at hf hc
  cases hf with
  | empty => obtain ⟨x, hx, _⟩ := hc; simp at hx
  | @mk hdr ws T ext c _ hH hw =>
    cases hH with
    | plain hv hhi =>
      obtain ⟨x, hx, hx2⟩ := hc
      simp only [List.cons_append, List.nil_append, List.getElem?_cons_succ, List.getElem?_cons_zero, Option.some.injEq] at hx
      subst hx
      exact absurd ((and3 _).1 hhi).2 hx2
    | rfc hx => exact absurd hx (by decide)
    | @library v hi nb sb hdr' ws' w T1 T2 near same ext' c' t _ _ hv hhi hnb _ hsb _ hH' hws' _ hw' hT hinst =>
      refine ⟨v, hi, nb, sb, hdr' ++ (ws' ++ w), ws, T1 ++ T2, near, same, t, hT, rfl, hnb, hsb,
        .mk hH' (hws'.snoc (by simpa using hw')), ?_, ?_, hw⟩
      · intro hv
        rcases hinst with ⟨_, e⟩ | ⟨hn, _⟩
        · exact e
        · exact absurd hv hn
      · intro hv
        rcases hinst with ⟨hn, _⟩ | ⟨_, e⟩
        · exact absurd hn hv
        · exact e

/-- A delta with a custom code table in which opcode 0 is ADD and opcode 1 is RUN, the other way round than in
the default table; its window is opcode 1 with size 4 and one byte of data. -/
def swappedDelta : Bytes :=
  [0xD6, 0xC3, 0xC4, 0, 2, 4, 3] ++
  [0xD6, 0xC3, 0xC4, 0, 0, 1, 0x8C, 0, 0, 13, 0x8C, 0, 0, 2, 4, 1, 1, 2, 3, 19, 0x8B, 0x7E, 2] ++
  [0, 8, 4, 0, 1, 2, 0, 0x61, 1, 4]

/-- The hypotheses of `custom_table_used_partial` are met; with the default table the same window is refused. -/
example : CustomTable swappedDelta ∧ (configured {}).decode [] [swappedDelta] = some [0x61, 0x61, 0x61, 0x61] ∧
    (configured {}).decode [] [[0xD6, 0xC3, 0xC4, 0, 0, 0, 8, 4, 0, 1, 2, 0, 0x61, 1, 4]] = none :=
  ⟨⟨2, rfl, by decide⟩, by decide +kernel, by decide +kernel⟩

/-- Against C08: RFC 3284 has the length of the code table data before the sizes of the caches, and these
sizes as bytes; the library reads the sizes as integers, and no length. A delta that announces the
default code table as a custom one, and nothing else, is refused. -/
theorem rfc_table_refused :
    let delta : Bytes := [0xD6, 0xC3, 0xC4, 0, 2, 22, 4, 3] ++
      [0xD6, 0xC3, 0xC4, 0, 0, 1, 0x8C, 0, 0, 10, 0x8C, 0, 0, 0, 3, 1, 19, 0x8C, 0, 0]
    FileCode rfc {} [] delta [] ∧ ({} : Decoder).decode [] [delta] = none := by
  refine ⟨?_, by decide +kernel⟩
  have hn : NumCode [0x8C, 0] 1536 :=
    ⟨⟨[0x8C], 0, rfl, by simp [continues], by simp [continues]⟩, by decide, by decide⟩
  have hexec : execOps defaultTable.toBytes [.copy 0 1536] = defaultTable.toBytes ++ defaultTable.toBytes := by
    rw [exec_copy, extend_block _ _ _ (by rw [default_table_size]; decide), List.drop_zero, List.take_of_length_le (by rw [default_table_size]; decide)]
  have hw : WindowCode defaultCoding false rfc tableSettings defaultTable.toBytes []
      [1, 0x8C, 0, 0, 10, 0x8C, 0, 0, 0, 3, 1, 19, 0x8C, 0, 0] defaultTable.toBytes := by
    have hsrc : SourceCode tableSettings.allowTarget defaultTable.toBytes [] 1 ([0x8C, 0] ++ [0]) defaultTable.toBytes := by
      have := SourceCode.dict (allowTarget := tableSettings.allowTarget) (dict := defaultTable.toBytes) (prev := []) (ind := 1)
        (lb := [0x8C, 0]) (pb := [0]) (len := 1536) (pos := 0) rfl hn (numCode_byte' rfl (by decide)) (by rw [default_table_size]; decide)
      rw [List.drop_zero, List.take_of_length_le (by rw [default_table_size]; decide)] at this
      exact this
    refine WindowCode.mk (ind := 1) (di := 0) (seg := [0x8C, 0] ++ [0]) (src := defaultTable.toBytes) (dl := [10])
      (tlen := [0x8C, 0]) (dlen := [0]) (ilen := [3]) (alen := [1]) (cks := []) (data := []) (inst := [19, 0x8C, 0])
      (addr := [0]) (items := [.opcode 19, .size [0x8C, 0], .address [0]]) (ops := [.copy 0 1536]) (surplus := 0)
      hsrc ?_ (Or.inl rfl) hexec (by rw [default_table_size]; decide) (by rw [default_table_size]; decide) ⟨rfl, rfl, rfl⟩ (Or.inl rfl)
      (by rw [default_table_size]; exact hn) rfl (numCode_byte' rfl (by decide)) (numCode_byte' rfl (by decide))
      (numCode_byte' rfl (by decide)) rfl (numCode_byte' rfl (by decide)) (Or.inl rfl) (by decide)
    refine .cons (op := 19) (i1 := [.size [0x8C, 0], .address [0]]) (o1 := [.copy 0 1536])
      (i2 := []) (o2 := []) (items := []) (ops := [])
      (.copy (by decide +kernel) (Or.inl ⟨by decide +kernel, hn⟩) ?_ (by rw [default_table_size]; decide) (by rw [default_table_size]; decide))
      (.noop (by decide +kernel)) .nil
    exact .self (numCode_byte' (b := 0) rfl (by decide)).1 (by decide)
  have hv : ValidTable 8 (CodeTable.ofBytes defaultTable.toBytes default_table_size) := by
    rw [← validate_iff]
    decide +kernel
  have := FileHeaderCode.rfc (tol := rfc) (left := defaultTable) (v := 0) (hi := 2) (near := 4) (same := 3) (lb := [22]) (hdr := [0xD6, 0xC3, 0xC4, 0, 0])
    rfl (Or.inl rfl) rfl (numCode_byte' rfl (by decide)) (.plain (v := 0) (hi := 0) (Or.inl rfl) rfl)
    (Windows.cons hw .nil) (by rw [List.append_nil]; exact default_table_size) (by
      have e : defaultTable.toBytes ++ [] = defaultTable.toBytes := List.append_nil _
      simp only [e]
      exact hv)
  exact .mk (ws := []) (T := []) this .nil

/-! ## Non-vacuity of the statements about windows -/

/-- An interleaved window with a checksum, for the target `abc`. -/
def checkedWindow : Bytes := [4, 13, 3, 0, 0, 4, 0, 0x92, 0xa8, 0x82, 0x26, 4, 0x61, 0x62, 0x63]

/-- Its header as a reader of the RFC would split it. -/
def checkedReading : Reading checkedWindow where
  ind := 4
  seg := []
  dl := [13]
  tlen := [3]
  di := 0
  dlen := [0]
  ilen := [4]
  alen := [0]
  cks := [0x92, 0xa8, 0x82, 0x26]
  body := [4, 0x61, 0x62, 0x63]
  bytes := rfl
  noSource := fun _ => rfl
  source := fun h => absurd (by decide) h
  hdl := (numCode_byte' (n := 13) rfl (by decide)).1
  htlen := (numCode_byte' (n := 3) rfl (by decide)).1
  hdlen := (numCode_byte' (n := 0) rfl (by decide)).1
  hilen := (numCode_byte' (n := 4) rfl (by decide)).1
  halen := (numCode_byte' (n := 0) rfl (by decide)).1

theorem checkedReading_checksum : IsVarint checkedReading.cks :=
  ⟨[0x92, 0xa8, 0x82], 0x26, rfl, by simp [continues], by simp [continues]⟩

/-- The hypotheses of `window_limit_respected`, `checksum_matches` and `no_target_window` are met. -/
theorem checked_window_conforms :
    WindowCode defaultCoding true library { maxWindow := 3, maxFile := 3, allowTarget := false } [] [] checkedWindow
      [0x61, 0x62, 0x63] ∧ checkedReading.ind &&& 4 ≠ 0 ∧ IsVarint checkedReading.cks := by
  refine ⟨?_, by decide, checkedReading_checksum⟩
  refine WindowCode.mk (ext := true) (ind := 4) (di := 0) (seg := []) (src := []) (dl := [13]) (tlen := [3]) (dlen := [0])
    (ilen := [4]) (alen := [0]) (cks := [0x92, 0xa8, 0x82, 0x26]) (data := []) (inst := [4, 0x61, 0x62, 0x63])
    (addr := []) (items := [.opcode 4, .size [], .data [0x61, 0x62, 0x63]]) (ops := [.add [0x61, 0x62, 0x63]])
    (surplus := 0) (.none rfl) ?_ (Or.inr (Or.inr ⟨⟨[.opcode 4, .size []], [0x61, 0x62, 0x63], Or.inl rfl⟩,
      ⟨[], _, rfl, by decide⟩⟩)) rfl (by decide) (by decide) rfl (Or.inl rfl)
    (numCode_byte' rfl (by decide)) rfl (numCode_byte' rfl (by decide)) (numCode_byte' rfl (by decide))
    (numCode_byte' rfl (by decide)) ⟨checkedReading_checksum, by decide +kernel⟩ (numCode_byte' rfl (by decide))
    (Or.inr (Or.inl (by decide))) (by decide)
  exact .cons (op := 4) (i1 := [.size [], .data [0x61, 0x62, 0x63]]) (o1 := [.add [0x61, 0x62, 0x63]])
    (i2 := []) (o2 := []) (items := []) (ops := [])
    (.add (by decide +kernel) (Or.inr ⟨by decide +kernel, rfl, by decide +kernel⟩))
    (.noop (by decide +kernel)) .nil

/-- The same window with one bit of the checksum changed is refused, and so is the same window under a
smaller limit. -/
example : ({} : Decoder).decode [] [0xD6 :: 0xC3 :: 0xC4 :: 0x53 :: 0 :: checkedWindow] = some [0x61, 0x62, 0x63] ∧
    ({} : Decoder).decode [] [0xD6 :: 0xC3 :: 0xC4 :: 0x53 :: 0 :: checkedWindow.set 10 0x27] = none ∧
    (configured { maxWindow := 2 }).decode [] [0xD6 :: 0xC3 :: 0xC4 :: 0x53 :: 0 :: checkedWindow] = none := by
  decide +kernel

example : (configured { allowTarget := false }).decode [] [stdDelta] = some [0x61, 0x62, 0x63] ∧ (2 : UInt8) &&& 2 ≠ 0 := by
  decide +kernel

end Vcd.Props
