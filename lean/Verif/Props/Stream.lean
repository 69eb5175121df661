import Verif.Proof.Nesting
import Verif.Proof.Eager
import Verif.Props.Rfc

/-!
# C03, C40, C44, C52: verdicts, nesting and prompt output for streams of chunks
-/

namespace Vcd.Props
open Vcd Vcd.Spec

/-! ## C03 -/

/-- The `library` grammar without interleaved windows that announce more bytes than they have. -/
def noSurplus : Tolerance := { library with excess := false }

/-- C03 up to interleaved windows that announce more bytes than they have (`verdict_depends_on_chunks`):
a delta without such windows is decoded to the same target in whatever chunks it comes, with the extensions
and custom code tables, nested to any depth, included. -/
theorem accepted_in_any_chunks (s : Settings) (dict T : Bytes) (cs : List Bytes)
    (h : FileCode noSurplus s dict cs.flatten T) : (configured s).decode dict cs = some T :=
  one_call_then_any_chunks (configured s) rfl dict cs.flatten T
    (decode_complete (d := configured s) rfl rfl rfl rfl rfl h rfl rfl rfl (by decide)) cs rfl

/-- C03: a delta that is no file of the `library` grammar is refused in whatever chunks it comes. -/
theorem refused_in_any_chunks (s : Settings) (dict : Bytes) (cs : List Bytes)
    (h : ¬ ∃ T, FileCode library s dict cs.flatten T) : (configured s).decode dict cs = none := by
  cases hd : (configured s).decode dict cs with
  | none => rfl
  | some T => exact absurd ⟨T, accepted_follows_grammar_partial s dict T cs hd⟩ h

/-- C03: two deliveries of the same bytes disagree only on a file of the `library` grammar that is no file of the
grammar without surplus. -/
theorem verdict_differs_only_with_surplus (s : Settings) (dict : Bytes) (cs cs' : List Bytes)
    (e : cs.flatten = cs'.flatten) (h : (configured s).decode dict cs ≠ (configured s).decode dict cs') :
    ∃ T, FileCode library s dict cs.flatten T ∧ ¬ FileCode noSurplus s dict cs.flatten T := by
  rcases Classical.em (∃ T, FileCode library s dict cs.flatten T) with ⟨T, hT⟩ | hn
  · refine ⟨T, hT, fun hs => h ?_⟩
    rw [accepted_in_any_chunks s dict T cs hs, accepted_in_any_chunks s dict T cs' (e ▸ hs)]
  · exact absurd (by rw [refused_in_any_chunks s dict cs hn, refused_in_any_chunks s dict cs' (e ▸ hn)]) h

/-- The hypotheses of `accepted_in_any_chunks` are met by the two windows of `conforming_example`; those of
`verdict_differs_only_with_surplus` by `verdict_depends_on_chunks`. -/
example : FileCode noSurplus {} []
    ([[0xD6, 0xC3, 0xC4, 0, 0, 0, 9, 3, 0, 3], [1, 0, 0x61, 0x62, 0x63, 4,
      2, 3, 0, 8], [7, 0, 0, 2, 1, 19, 7, 0]] : List Bytes).flatten
    [0x61, 0x62, 0x63, 0x61, 0x62, 0x63, 0x61, 0x62, 0x63, 0x61] :=
  conforming_example.mono ⟨by decide, by decide, by decide, by decide, by decide, Or.inl rfl⟩

/-- `refused_in_any_chunks` has instances: a delta whose only window ends too early. -/
example : ¬ ∃ T, FileCode library {} [] ([[0xD6, 0xC3, 0xC4], [0, 0, 0, 9, 3, 0, 3, 1, 0, 0x61, 0x62]] : List Bytes).flatten T := by
  rintro ⟨T, h⟩
  have := (accepts_exactly_library {} [] _ T).2 h
  revert this
  have e : (configured {}).decode [] ((([[0xD6, 0xC3, 0xC4], [0, 0, 0, 9, 3, 0, 3, 1, 0, 0x61, 0x62]] : List Bytes).flatten).map
    fun b => [b]) = none := by decide +kernel
  rw [e]
  simp

/-! ## C07, C08: `strict` is what the RFC and the library agree on -/

/-- Whatever `strict` allows, both the RFC and the library allow. -/
theorem strict_is_common (s : Settings) (dict delta T : Bytes) (h : FileCode strict s dict delta T) :
    FileCode rfc s dict delta T ∧ FileCode library s dict delta T :=
  ⟨h.mono ⟨by decide, by decide, by decide, by decide, by decide, Or.inl rfl⟩,
   h.mono ⟨by decide, by decide, by decide, by decide, by decide, Or.inl rfl⟩⟩

/-! ## C40 -/

/-- What is true of C40: every nested decoder costs at least seven bytes of input, so a delta of `n` bytes
nests at most `n / 7` decoders. `nesting_unbounded` shows that this bound is reached. -/
theorem nesting_bounded_by_input_partial (d : Decoder) (hd : d.top.started = false) (dict : Bytes) (cs : List Bytes)
    (rs : List DecoderReply) (d' : Decoder) (h : d.calls (.start dict :: cs.map .chunk) = .ok (rs, d')) :
    7 * d'.nested.length ≤ cs.flatten.length := by
  have hcall : d.call (.start dict) = .ok (⟨true, []⟩, d.start dict) := rfl
  obtain ⟨r, d1, rs', h1, h2, rfl⟩ := calls_cons_ok h
  rw [hcall] at h1
  simp only [Except.ok.injEq, Prod.mk.injEq] at h1
  obtain ⟨rfl, rfl⟩ := h1
  have := calls_nested (Fed.start d hd dict) h2
  have e : (d.start dict).nested = [] ∧ (d.start dict).top.unparsed = [] := by
    simp [Decoder.start, Level.start, hd, Level.reset]
  rw [e.1] at this
  simp only [potential, e.2, List.length_nil] at this
  omega

/-- The hypotheses are met, with two nested decoders. -/
example : ∃ rs d', ({} : Decoder).calls [.start [], .chunk [0xD6, 0xC3, 0xC4, 0, 2, 4], .chunk [3, 0xD6, 0xC3, 0xC4, 0, 2, 4, 3, 0xD6]] =
    .ok (rs, d') ∧ d'.nested.length = 2 ∧ ∀ r ∈ rs, r.ret = true := by
  refine ⟨_, _, rfl, ?_, ?_⟩ <;> decide +kernel

/-! ## C44 -/

/-- C44: as long as all chunks have been accepted, the output contains the targets of all windows that have been
fed completely: nothing is held back until `FinishDecoding` or until more input arrives. -/
theorem whole_windows_are_output (s : Settings) (dict : Bytes) (cs : List Bytes) (hdr ws u T : Bytes) (ext : Bool) (c : Coding)
    (hb : cs.flatten = hdr ++ ws ++ u) (hh : FileHeaderCode library hdr ext c)
    (hw : Windows c ext library s dict [] ws T) (rs : List DecoderReply) (d : Decoder)
    (h : (configured s).calls (.start dict :: cs.map .chunk) = .ok (rs, d)) (hr : ∀ r ∈ rs, r.ret = true) :
    T <+: allOut rs := by
  have hcall : (configured s).call (.start dict) = .ok (⟨true, []⟩, (configured s).start dict) := rfl
  obtain ⟨r, d1, rs', h1, h2, rfl⟩ := calls_cons_ok h
  rw [hcall] at h1
  simp only [Except.ok.injEq, Prod.mk.injEq] at h1
  obtain ⟨rfl, rfl⟩ := h1
  have hf := Fed.start (configured s) rfl dict
  have h3 := calls_feed_true h2 (fun r hx => hr r (by simp [hx]))
  obtain ⟨e', h4, _⟩ := feed_refine_all hf (css := cs.map singles) (by rw [map_singles_flatten]; exact h3)
  rw [flatten_map_singles, hb, singles_append, feed_append] at h4
  obtain ⟨d2, o1, o2, k1, _, k3⟩ := h4
  have h5 := decode_complete_singles (d := configured s) rfl rfl rfl rfl rfl (FileCode.mk hh hw) rfl rfl (by decide)
  obtain ⟨e, h6, _⟩ := decode_some.1 h5
  rw [k1] at h6
  simp only [Option.some.injEq, Prod.mk.injEq] at h6
  have : allOut (⟨true, []⟩ :: rs') = allOut rs' := by simp [allOut]
  rw [this, k3, h6.1]
  exact List.prefix_append _ _

/-- The hypotheses are met: one whole window and half of another. -/
example : ∃ rs d, (configured {}).calls [.start [], .chunk [0xD6, 0xC3, 0xC4, 0, 0, 0, 9, 3, 0, 3],
      .chunk [1, 0, 0x61, 0x62, 0x63, 4, 2, 3, 0, 8, 7]] = .ok (rs, d) ∧ (∀ r ∈ rs, r.ret = true) ∧
    allOut rs = [0x61, 0x62, 0x63] := by
  refine ⟨_, _, rfl, ?_, ?_⟩ <;> decide +kernel

/-! ## C52 -/

/-- C52: in the interleaved format, as long as all chunks have been accepted, the output contains what the instructions
produce that have been fed completely, also if the window they belong to has not been fed completely. -/
theorem whole_instructions_are_output (s : Settings) (dict : Bytes) (cs : List Bytes) (hdr ws v u T X : Bytes) (c : Coding)
    (hb : cs.flatten = hdr ++ ws ++ v ++ u) (hh : FileHeaderCode library hdr true c)
    (hw : Windows c true library s dict [] ws T) (hv : WindowBegun c s dict T v X) (rs : List DecoderReply) (d : Decoder)
    (h : (configured s).calls (.start dict :: cs.map .chunk) = .ok (rs, d)) (hr : ∀ r ∈ rs, r.ret = true) :
    T ++ X <+: allOut rs := by
  have hcall : (configured s).call (.start dict) = .ok (⟨true, []⟩, (configured s).start dict) := rfl
  obtain ⟨r, d1, rs', h1, h2, rfl⟩ := calls_cons_ok h
  rw [hcall] at h1
  simp only [Except.ok.injEq, Prod.mk.injEq] at h1
  obtain ⟨rfl, rfl⟩ := h1
  have hf := Fed.start (configured s) rfl dict
  -- what has been fed so far, in larger chunks
  have e := start_fresh (d := configured s) rfl dict
  have hn : ((configured s).start dict).nested = [] := by rw [e]
  have hc : ((configured s).start dict).top.cache = none := by rw [e]; rfl
  have hu : ((configured s).start dict).top.unparsed = [] := by rw [e]; rfl
  have htt : ((configured s).start dict).top.table = defaultTable := by rw [e]; rfl
  obtain ⟨cs1, L1, e1, f1, hL1, hu1⟩ := header_feed hh rfl rfl (by decide) hf.chain.node hc hu
    (conf_start (d := configured s) rfl rfl rfl rfl dict) htt
  have hsum : c.near + c.same ≤ 254 := by cases hv; assumption
  obtain ⟨cs2, L2, e2, f2, hL2, hB2, hu2, hc2⟩ := feed_windows hL1.node (hL1.between hsum) hL1.cache hu1 hw rfl rfl
  rw [List.nil_append] at hB2
  obtain ⟨v1, v2, d3, more, rfl, f3, _⟩ := feed_begun hL2 hB2 hc2 hu2 hv
  have hd0 : (configured s).start dict = { top := ((configured s).start dict).top, nested := [] } := by rw [← hn]
  have hfeed : ((configured s).start dict).feed (cs1 ++ (cs2 ++ [v1])) = some (T ++ (X ++ more), d3) := by
    rw [hd0]
    exact feed_append.2 ⟨_, _, _, f1, feed_append.2 ⟨_, _, _, f2, f3, rfl⟩, rfl⟩
  obtain ⟨e', h4, _⟩ := feed_refine_all hf (css := (cs1 ++ (cs2 ++ [v1])).map singles) (by rw [map_singles_flatten]; exact hfeed)
  rw [flatten_map_singles] at h4
  -- the same, byte by byte, in what has been fed in fact
  have h3 := calls_feed_true h2 (fun r hx => hr r (by simp [hx]))
  obtain ⟨e'', h5, _⟩ := feed_refine_all hf (css := cs.map singles) (by rw [map_singles_flatten]; exact h3)
  have hsp : cs.flatten = (cs1 ++ (cs2 ++ [v1])).flatten ++ (v2 ++ u) := by
    rw [hb]; simp [e1, e2]
  rw [flatten_map_singles, hsp, singles_append, feed_append] at h5
  obtain ⟨d2, o1, o2, k1, _, k3⟩ := h5
  rw [k1] at h4
  simp only [Option.some.injEq, Prod.mk.injEq] at h4
  have : allOut (⟨true, []⟩ :: rs') = allOut rs' := by simp [allOut]
  rw [this, k3, h4.1]
  exact ⟨more ++ o2, by simp⟩

/-- The hypotheses are met: a window of two instructions, of which the first and half of the second have arrived. -/
example : ∃ (hdr v u X : Bytes) (rs : List DecoderReply) (d : Decoder),
    [[0xD6, 0xC3, 0xC4, 0x53, 0, 0, 13, 6, 0, 0, 8], [0, 4, 0x61, 0x62, 0x63, 4, 0x64]].flatten = hdr ++ [] ++ v ++ u ∧
    FileHeaderCode library hdr true defaultCoding ∧ Windows defaultCoding true library {} [] [] [] [] ∧
    WindowBegun defaultCoding {} [] [] v X ∧ X = [0x61, 0x62, 0x63] ∧
    (configured {}).calls [.start [], .chunk [0xD6, 0xC3, 0xC4, 0x53, 0, 0, 13, 6, 0, 0, 8],
      .chunk [0, 4, 0x61, 0x62, 0x63, 4, 0x64]] = .ok (rs, d) ∧ (∀ r ∈ rs, r.ret = true) := by
  refine ⟨[0xD6, 0xC3, 0xC4, 0x53, 0], [0, 13, 6, 0, 0, 8, 0, 4, 0x61, 0x62, 0x63], [4, 0x64], _, _, _, by decide,
    FileHeaderCode.plain (v := 0x53) (Or.inr rfl) (by decide), .nil, ?_, rfl, rfl, by decide +kernel⟩
  have half : ∀ (hist : List Nat) (here : Nat) (bs : Bytes), bs.length = 3 →
      HalfCode defaultCoding hist here (defaultCoding.table.first 4) [.size [], .data bs] [.add bs] :=
    fun _ _ _ h => .add (by decide +kernel) (Or.inr ⟨by decide +kernel, rfl, by rw [h]; decide +kernel⟩)
  have none : ∀ (hist : List Nat) (here : Nat), HalfCode defaultCoding hist here (defaultCoding.table.second 4) [] [] :=
    fun _ _ => .noop (by decide +kernel)
  have p1 : ∀ (hist : List Nat) (here : Nat), Program defaultCoding library hist here
      [.opcode 4, .size [], .data [0x64, 0x65, 0x66]] [.add [0x64, 0x65, 0x66]] :=
    fun _ _ => .cons (half _ _ _ rfl) (none _ _) .nil
  exact WindowBegun.mk (ind := 0) (di := 0) (seg := []) (src := []) (dl := [13]) (tlen := [6]) (dlen := [0]) (ilen := [8])
    (alen := [0]) (cks := []) (X := [0x61, 0x62, 0x63]) (Y := [0x64, 0x65, 0x66])
    (items := [.opcode 4, .size [], .data [0x61, 0x62, 0x63]])
    (rest := [.opcode 4, .size [], .data [0x64, 0x65, 0x66]]) (ops := [.add [0x61, 0x62, 0x63]])
    (later := [.add [0x64, 0x65, 0x66]]) (.none (by decide)) (.cons (half _ _ _ rfl) (none _ _) .nil)
    (.cons (half _ _ _ rfl) (none _ _) (p1 _ _))
    (Or.inr ⟨⟨[.opcode 4, .size [], .data [0x61, 0x62, 0x63], .opcode 4, .size []], _, Or.inl rfl⟩,
      [.add [0x61, 0x62, 0x63]], _, rfl, by decide⟩) rfl rfl (by simp) (by decide) (by decide)
    (numCode_byte' rfl (by decide)) (by decide) (numCode_byte' rfl (by decide)) (numCode_byte' rfl (by decide))
    (numCode_byte' rfl (by decide)) rfl (numCode_byte' rfl (by decide)) (Or.inl (by decide)) (by decide)

end Vcd.Props
