import Verif.Props.Reuse
import Verif.Proof.MemoryWitness

/-!
# C58: what a decoder keeps between two calls
-/

namespace Vcd.Props
open Vcd Vcd.Spec

/-! ## Target data -/

/-- C58: a decoder for which copying from earlier target data is allowed keeps all of the target so far, and only that. -/
theorem target_kept_when_allowed (s : Settings) (left : CodeTable) (ha : s.allowTarget = true) (dict : Bytes) (cs : List Bytes)
    (rs : List DecoderReply) (d : Decoder) (h : (leftWith s left).calls (.start dict :: cs.map .chunk) = .ok (rs, d))
    (hr : ∀ r ∈ rs, r.ret = true) : heldTarget d = allOut rs := by
  obtain ⟨hf, h1⟩ := calls_start_feed (d := leftWith s left) rfl h hr
  have e := start_fresh (d := leftWith s left) rfl dict
  have hk := feed_held hf (Kept.start (leftWith s left) s.maxWindow rfl dict) (by rw [e]; exact Nat.le_refl _) h1
  have hd : ((leftWith s left).start dict).top.decoded = [] := by rw [e]; rfl
  have := hk.2.2.2.2.1 (by rw [e]; exact ha)
  rw [hd, List.nil_append] at this
  exact this

/-- The hypotheses are met, by a whole window and the beginning of another. -/
example : ∃ rs d, (leftWith {} defaultTable).calls (.start [] :: [[0xD6, 0xC3, 0xC4, 0, 0, 0, 9, 3, 0, 3],
      [1, 0, 0x61, 0x62, 0x63, 4, 2, 3, 0, 8, 7]].map .chunk) = .ok (rs, d) ∧ (∀ r ∈ rs, r.ret = true) ∧
    heldTarget d = [0x61, 0x62, 0x63] ∧ heldInput d = 5 := by
  refine ⟨_, _, rfl, ?_, ?_, ?_⟩ <;> decide +kernel

/-- C58: a decoder for which that is not allowed keeps an end of the target that is shorter than one window may be. -/
theorem target_kept_is_short (s : Settings) (left : CodeTable) (ha : s.allowTarget = false) (dict : Bytes) (cs : List Bytes)
    (rs : List DecoderReply) (d : Decoder) (h : (leftWith s left).calls (.start dict :: cs.map .chunk) = .ok (rs, d))
    (hr : ∀ r ∈ rs, r.ret = true) :
    heldTarget d <:+ allOut rs ∧ (heldTarget d = [] ∨ (heldTarget d).length < s.maxWindow) := by
  obtain ⟨hf, h1⟩ := calls_start_feed (d := leftWith s left) rfl h hr
  have e := start_fresh (d := leftWith s left) rfl dict
  obtain ⟨k1, k2, k3, k4, _⟩ := feed_held hf (Kept.start (leftWith s left) s.maxWindow rfl dict) (by rw [e]; exact Nat.le_refl _) h1
  have hd : ((leftWith s left).start dict).top.decoded = [] := by rw [e]; rfl
  have h0 : d.top.startPos = 0 := k1.flushed (by rw [k4, e]; exact ha)
  have hL := (hf.feed h1).chain.node.inv
  rw [hd, List.nil_append] at k2
  refine ⟨k2, ?_⟩
  cases hw : d.top.win with
  | none =>
    left
    have := hL.closed hw
    rw [h0] at this
    exact List.eq_nil_of_length_eq_zero this.symm
  | some w =>
    right
    have h2 := (hL.opened w hw).2.1
    have h3 := (k1.openWin w hw).2
    unfold heldTarget
    omega

/-- The hypotheses are met, by two interleaved windows, of which the second has not been fed completely. -/
example : ∃ rs d, (leftWith { allowTarget := false } defaultTable).calls (.start [] :: [[0xD6, 0xC3, 0xC4, 0x53, 0,
      0, 9, 3, 0, 0, 4, 0, 4, 0x61, 0x62, 0x63], [0, 13, 6, 0, 0, 8, 0, 4, 0x64, 0x65, 0x66, 4, 0x67]].map .chunk) = .ok (rs, d) ∧
    (∀ r ∈ rs, r.ret = true) ∧ allOut rs = [0x61, 0x62, 0x63, 0x64, 0x65, 0x66] ∧
    heldTarget d = [0x64, 0x65, 0x66] ∧ heldInput d = 2 := by
  refine ⟨_, _, rfl, ?_, ?_, ?_, ?_⟩ <;> decide +kernel

/-- C58: such a decoder keeps nothing of the target windows that have been fed completely. -/
theorem no_earlier_target_kept (s : Settings) (left : CodeTable) (ha : s.allowTarget = false) (dict : Bytes) (cs : List Bytes)
    (hdr ws u T : Bytes) (ext : Bool) (c : Coding) (hb : cs.flatten = hdr ++ ws ++ u) (hh : FileHeaderCode library hdr ext c left)
    (hw : Windows c ext library s dict [] ws T) (rs : List DecoderReply) (d : Decoder)
    (h : (leftWith s left).calls (.start dict :: cs.map .chunk) = .ok (rs, d)) (hr : ∀ r ∈ rs, r.ret = true) :
    ∃ rest, allOut rs = T ++ rest ∧ heldTarget d <:+ rest := by
  obtain ⟨hf, h1⟩ := calls_start_feed (d := leftWith s left) rfl h hr
  have e := start_fresh (d := leftWith s left) rfl dict
  obtain ⟨cs0, L, q1, q2, q3, q4, q5, q6, _⟩ := feed_boundary (d := leftWith s left) (s := s) rfl rfl rfl rfl rfl hh hw
  have hM : ((leftWith s left).start dict).top.maxWin ≤ s.maxWindow := by rw [e]; exact Nat.le_refl _
  have hk := Kept.start (leftWith s left) s.maxWindow rfl dict
  obtain ⟨k1, _, _, k4, _⟩ := feed_held hf hk hM q2
  have h0 : L.startPos = 0 := k1.flushed (by rw [k4, e]; exact ha)
  have hd : L.decoded = [] := by
    have := q3.inv.closed q4
    rw [h0] at this
    exact List.eq_nil_of_length_eq_zero this.symm
  obtain ⟨o2, r1, _, _, r2, _⟩ := held_after hf hk hM q2 rfl q6 h1 (u := u) (by rw [hb, q1])
  refine ⟨o2, r1, ?_⟩
  have r2 : d.top.decoded <:+ L.decoded ++ o2 := r2
  rw [hd, List.nil_append] at r2
  exact r2

/-- The header and the window of the examples are what the hypotheses ask for. -/
theorem memory_example (s : Settings) (hw : 3 ≤ s.maxWindow) (hf : 3 ≤ s.maxFile) :
    FileHeaderCode library [0xD6, 0xC3, 0xC4, 0x53, 0] true defaultCoding ∧
    Windows defaultCoding true library s [] [] [0, 9, 3, 0, 3, 1, 0, 0x61, 0x62, 0x63, 4] [0x61, 0x62, 0x63] := by
  refine ⟨.plain (v := 0x53) (hi := 0) (Or.inr rfl) rfl, ?_⟩
  refine Windows.cons (w := [0, 9, 3, 0, 3, 1, 0, 0x61, 0x62, 0x63, 4]) (T := [0x61, 0x62, 0x63]) ?_ .nil
  refine .mk (ind := 0) (di := 0) (seg := []) (src := []) (dl := [9]) (tlen := [3]) (dlen := [3]) (ilen := [1])
    (alen := [0]) (cks := []) (data := [0x61, 0x62, 0x63]) (inst := [4]) (addr := [])
    (items := [.opcode 4, .size [], .data [0x61, 0x62, 0x63]]) (ops := [.add [0x61, 0x62, 0x63]]) (surplus := 0)
    (.none rfl) ?_ (Or.inr (Or.inr ⟨⟨[.opcode 4, .size []], [0x61, 0x62, 0x63], Or.inl rfl⟩,
      ⟨[], _, rfl, by decide⟩⟩)) rfl hw hf ⟨rfl, rfl, rfl⟩ (Or.inl rfl)
    (numCode_byte' rfl (by decide)) rfl (numCode_byte' rfl (by decide)) (numCode_byte' rfl (by decide))
    (numCode_byte' rfl (by decide)) rfl (numCode_byte' rfl (by decide)) (Or.inr (Or.inl (by decide))) (by decide)
  exact .cons (op := 4) (i1 := [.size [], .data [0x61, 0x62, 0x63]]) (o1 := [.add [0x61, 0x62, 0x63]])
    (i2 := []) (o2 := []) (items := []) (ops := [])
    (.add (by decide +kernel) (Or.inr ⟨by decide +kernel, rfl, by decide +kernel⟩))
    (.noop (by decide +kernel)) .nil

/-- All hypotheses are met, by this window and the beginning of an interleaved one (`memory_example`). -/
example : ∃ rs d, (leftWith { allowTarget := false } defaultTable).calls (.start [] :: [[0xD6, 0xC3, 0xC4, 0x53, 0,
      0, 9, 3, 0, 3, 1], [0, 0x61, 0x62, 0x63, 4, 0, 13, 6, 0, 0, 8, 0, 4, 0x64, 0x65, 0x66, 4, 0x67]].map .chunk) = .ok (rs, d) ∧
    (∀ r ∈ rs, r.ret = true) ∧ allOut rs = [0x61, 0x62, 0x63] ++ [0x64, 0x65, 0x66] ∧
    heldTarget d = [0x64, 0x65, 0x66] ∧ heldInput d = 2 := by
  refine ⟨_, _, rfl, ?_, ?_, ?_, ?_⟩ <;> decide +kernel

/-! ## Input -/

/-- C58: of the input a decoder keeps nothing that belongs to the file header or to windows that have been fed completely. -/
theorem no_earlier_input_kept (s : Settings) (left : CodeTable) (dict : Bytes) (cs : List Bytes)
    (hdr ws u T : Bytes) (ext : Bool) (c : Coding) (hb : cs.flatten = hdr ++ ws ++ u) (hh : FileHeaderCode library hdr ext c left)
    (hw : Windows c ext library s dict [] ws T) (rs : List DecoderReply) (d : Decoder)
    (h : (leftWith s left).calls (.start dict :: cs.map .chunk) = .ok (rs, d)) (hr : ∀ r ∈ rs, r.ret = true) :
    heldInput d ≤ u.length := by
  obtain ⟨hf, h1⟩ := calls_start_feed (d := leftWith s left) rfl h hr
  have e := start_fresh (d := leftWith s left) rfl dict
  obtain ⟨cs0, L, q1, q2, q3, q4, q5, q6, _⟩ := feed_boundary (d := leftWith s left) (s := s) rfl rfl rfl rfl rfl hh hw
  obtain ⟨o2, _, r1, r2, _⟩ := held_after hf (Kept.start (leftWith s left) s.maxWindow rfl dict)
    (by rw [e]; exact Nat.le_refl _) q2 rfl q6 h1 (u := u) (by rw [hb, q1])
  have h0 : spanOf L L.unparsed = 0 := by simp [spanOf, q4, q5]
  have r2 : spanOf d.top d.top.unparsed ≤ spanOf L L.unparsed + u.length := r2
  have := spanOf_ge d.top d.top.unparsed
  rw [heldInput_leaf r1]
  omega

/-- All hypotheses are met, by one window and a part of another standard one, all of which is kept (`memory_example`). -/
example : ∃ rs d, (leftWith {} defaultTable).calls (.start [] :: [[0xD6, 0xC3, 0xC4, 0x53, 0,
      0, 9, 3, 0, 3, 1], [0, 0x61, 0x62, 0x63, 4, 0, 9, 3, 0, 3, 1, 0, 0x64]].map .chunk) = .ok (rs, d) ∧
    (∀ r ∈ rs, r.ret = true) ∧ heldInput d = ([0, 9, 3, 0, 3, 1, 0, 0x64] : Bytes).length := by
  refine ⟨_, _, rfl, ?_, ?_⟩ <;> decide +kernel

/-- C58: in the interleaved format nothing is kept that belongs to instructions that have been fed completely, unless the
code table has opcodes that begin with no instruction. -/
theorem no_earlier_instruction_kept (s : Settings) (left : CodeTable) (dict : Bytes) (cs : List Bytes)
    (hdr ws v u T X : Bytes) (c : Coding) (hno : NoNoops c.table) (hb : cs.flatten = hdr ++ ws ++ v ++ u)
    (hh : FileHeaderCode library hdr true c left) (hw : Windows c true library s dict [] ws T) (hv : WindowBegun c s dict T v X)
    (rs : List DecoderReply) (d : Decoder)
    (h : (leftWith s left).calls (.start dict :: cs.map .chunk) = .ok (rs, d)) (hr : ∀ r ∈ rs, r.ret = true) :
    heldInput d ≤ u.length := by
  obtain ⟨hf, h1⟩ := calls_start_feed (d := leftWith s left) rfl h hr
  have e := start_fresh (d := leftWith s left) rfl dict
  obtain ⟨cs0, L, q1, q2, q3, q4, q5, q6, q7⟩ := feed_boundary (d := leftWith s left) (s := s) rfl rfl rfl rfl rfl hh hw
  have hsum : c.near + c.same ≤ 254 := by cases hv; assumption
  have hB := q7 hsum
  obtain ⟨v1, v2, d3, more, rfl, f3, n3, u3, hv2⟩ := feed_begun q3 hB q6 q5 hv
  have hv2 : v2 = [] := hv2 hno
  subst hv2
  have hM : ((leftWith s left).start dict).top.maxWin ≤ s.maxWindow := by rw [e]; exact Nat.le_refl _
  have hk := Kept.start (leftWith s left) s.maxWindow rfl dict
  have f4 : ((leftWith s left).start dict).feed (cs0 ++ [v1]) = some (T ++ (X ++ more), d3) :=
    feed_append.2 ⟨_, _, _, q2, f3, rfl⟩
  have g1 := feed_held hf hk hM q2
  have g2 := feed_held (hf.feed q2) g1.1 (by rw [g1.2.2.1]; exact hM) f3
  obtain ⟨_, hc3, ht3, _⟩ := g2.2.2.2.2.2 rfl q6
  obtain ⟨o2, _, r1, _, _, _, r2⟩ := held_after hf hk hM f4 n3 hc3 h1 (u := u) (by rw [hb]; simp [q1])
  have ht : d3.top.table = c.table := ht3.trans hB.table
  have := r2 (by rw [ht]; exact hno)
  rw [u3, List.length_nil] at this
  rw [heldInput_leaf r1]
  omega

/-- The opcodes of the default table all begin with an instruction. The other hypotheses are met by the two chunks in the
example below `whole_instructions_are_output`, and two bytes, the beginning of the second instruction, are kept. -/
example : NoNoops defaultTable ∧ ∃ rs d, (leftWith {} defaultTable).calls (.start [] ::
      [[0xD6, 0xC3, 0xC4, 0x53, 0, 0, 13, 6, 0, 0, 8], [0, 4, 0x61, 0x62, 0x63, 4, 0x64]].map .chunk) = .ok (rs, d) ∧
    (∀ r ∈ rs, r.ret = true) ∧ heldInput d = ([4, 0x64] : Bytes).length := by
  refine ⟨fun op => forall_byte (p := fun op => (defaultTable.first op).inst ≠ vcdNoop) (by decide +kernel) op, _, _, rfl, ?_, ?_⟩ <;>
    decide +kernel

/-- C58: whatever has been fed, at most that much is kept, and nested decoders take from it. -/
theorem input_kept_at_most_fed (s : Settings) (left : CodeTable) (dict : Bytes) (cs : List Bytes) (rs : List DecoderReply)
    (d : Decoder) (h : (leftWith s left).calls (.start dict :: cs.map .chunk) = .ok (rs, d)) (hr : ∀ r ∈ rs, r.ret = true) :
    heldInput d + 7 * d.nested.length ≤ cs.flatten.length := by
  obtain ⟨hf, h1⟩ := calls_start_feed (d := leftWith s left) rfl h hr
  have e := start_fresh (d := leftWith s left) rfl dict
  have key : ∀ (L : Level) (ns : List Level),
      ((L :: ns).map fun L => L.unparsed.length).sum + 7 * ns.length = potential L ns := by
    intro L ns
    induction ns generalizing L with
    | nil => simp [potential]
    | cons n ns ih =>
      have := ih n
      simp only [List.map_cons, List.sum_cons, List.length_cons, potential] at *
      omega
  have hp : ∀ (cs : List Bytes) (a b : Decoder) (o : Bytes), Fed a → a.feed cs = some (o, b) →
      potential b.top b.nested ≤ potential a.top a.nested + cs.flatten.length := by
    intro cs
    induction cs with
    | nil =>
      intro a b o _ hab
      simp only [Decoder.feed, Option.some.injEq, Prod.mk.injEq] at hab
      rw [hab.2]; simp
    | cons c cs ih =>
      intro a b o ha hab
      obtain ⟨L, ns, o1, o2, k1, k2, rfl⟩ := feed_cons_some hab
      have := ih _ _ _ (ha.next k1) k2
      have := chunkRun_potential ha.chain k1
      simp only [List.flatten_cons, List.length_append] at *
      omega
  have := hp _ _ _ _ hf h1
  have h0 : potential ((leftWith s left).start dict).top ((leftWith s left).start dict).nested = 0 := by rw [e]; rfl
  rw [h0, Nat.zero_add] at this
  have hk := key d.top d.nested
  unfold heldInput
  omega

/-! ## Custom code tables -/

/-- C58: while custom code tables are read, nothing of the target is kept, less than two code tables are kept for each
nested decoder, and only the innermost decoder keeps input. When none is being read, nothing is kept for code tables. -/
theorem tables_kept_are_bounded (s : Settings) (left : CodeTable) (dict : Bytes) (cs : List Bytes) (rs : List DecoderReply)
    (d : Decoder) (h : (leftWith s left).calls (.start dict :: cs.map .chunk) = .ok (rs, d)) (hr : ∀ r ∈ rs, r.ret = true) :
    heldTables d ≤ 3070 * d.nested.length ∧ (d.nested ≠ [] → heldTarget d = []) ∧
    heldInput d = ((d.top :: d.nested).getLast (by simp)).unparsed.length := by
  obtain ⟨hf, h1⟩ := calls_start_feed (d := leftWith s left) rfl h hr
  have e := start_fresh (d := leftWith s left) rfl dict
  have hs := feed_string hf (by rw [e]; rfl) h1
  have hc := (hf.feed h1).chain
  obtain ⟨c1, c2⟩ := chain_held hc hs
  refine ⟨c2, ?_, c1⟩
  intro hne
  cases hn : d.nested with
  | nil => exact absurd hn hne
  | cons n ns =>
    rw [hn] at hc
    exact hc.2.1.decoded

/-- The hypotheses are met, by two nested decoders of which the inner one has decoded three bytes of its table. -/
example : ∃ rs d, (leftWith {} defaultTable).calls (.start [] :: [[0xD6, 0xC3, 0xC4, 0, 2, 4], [3, 0xD6, 0xC3, 0xC4, 0, 2, 4, 3],
      [0xD6, 0xC3, 0xC4, 0, 0, 0, 9, 3, 0, 3, 1], [0, 0x61, 0x62, 0x63, 4, 0, 9]].map .chunk) = .ok (rs, d) ∧
    (∀ r ∈ rs, r.ret = true) ∧ d.nested.length = 2 ∧ heldTables d = 6 ∧ heldInput d = 2 := by
  refine ⟨_, _, rfl, ?_, ?_, ?_, ?_⟩ <;> decide +kernel

/-! ## No limit bounds the input that is kept -/

/-- C58, the negative side: no setting bounds the input that is kept. A number in a header may begin with any number of
zeros; all of them are kept, and read again at each call, until the number ends. -/
theorem header_kept_without_bound (s : Settings) (dict : Bytes) (N : Nat) :
    ∃ d, (configured s).calls [.start dict, .chunk ([0xD6, 0xC3, 0xC4, 0, 0] ++ 0 :: List.replicate N 0x80)] =
      .ok ([⟨true, []⟩, ⟨true, []⟩], d) ∧ heldInput d = N + 1 := by
  obtain ⟨e, h1, h2, h3⟩ := chunk_waits (d := configured s) rfl dict (0 :: List.replicate N 0x80) 0 (Or.inl rfl) (by
    have : ∀ (a b : Nat) (c : Bool) (r : Bytes), parseWinIndicator a b c (0 :: r) = .ok (0, 0, 0) r := by
      intro a b c r
      simp [parseWinIndicator, parseByte, Parsed.bind, vcdSource, vcdTarget]
      decide
    rw [readHeader, this]
    simp [Parsed.bind, parseSize_zeros])
  exact ⟨e, h1, by rw [heldInput_leaf h2, h3]; simp⟩

/-- C58, the negative side: a window whose target is empty may announce sections of nearly 2^31 bytes, which are kept until
they are complete, whatever the limits for target sizes are. -/
theorem sections_kept_for_empty_target (s : Settings) (dict : Bytes) (N : Nat) (hN : N ≤ 2147483638) :
    ∃ h : Bytes, h.length ≤ 15 ∧ ∀ data : Bytes, data.length < N →
      ∃ d, (configured s).calls [.start dict, .chunk ([0xD6, 0xC3, 0xC4, 0, 0] ++ (h ++ data))] =
        .ok ([⟨true, []⟩, ⟨true, []⟩], d) ∧ heldInput d = h.length + data.length := by
  obtain ⟨dlen, _, k1, k2, _⟩ := Writer.sizeBytes_spec (n := N) (by simp only [int32Max]; omega)
  obtain ⟨dl, _, m1, m2, _⟩ := Writer.sizeBytes_spec (n := dlen.length + 4 + N) (by simp only [int32Max]; omega)
  refine ⟨[0] ++ dl ++ [0, 0] ++ dlen ++ [0, 0], by simp only [List.length_append, List.length_cons, List.length_nil]; omega, ?_⟩
  intro data hd
  obtain ⟨e, h1, h2, h3⟩ := chunk_waits (d := configured s) rfl dict ([0] ++ dl ++ [0, 0] ++ dlen ++ [0, 0] ++ data) 0 (Or.inl rfl)
    (readHeader_sections (by
      simp [Level.wouldExceed, Level.withHeader, Decoder.start, Level.start, configured, Level.reset]) rfl m1 k1 hd)
  exact ⟨e, h1, by rw [heldInput_leaf h2, h3, List.length_append]⟩

/-- C58, the negative side: an interleaved section that ends inside an instruction. The window can never be completed, but
`DecodeChunk` accepts all further input and keeps all of it; only `FinishDecoding` reports the error. -/
theorem overlong_instruction_keeps_all_input (cs : List Bytes) :
    ∃ d, ({} : Decoder).calls (.start [] :: .chunk [0xD6, 0xC3, 0xC4, 0x53, 0, 0, 7, 5, 0, 0, 2, 0, 6, 0x61] :: cs.map .chunk) =
        .ok (⟨true, []⟩ :: ⟨true, []⟩ :: cs.map fun _ => ⟨true, []⟩, d) ∧
      heldInput d = 2 + cs.flatten.length ∧ d.finish.1 = false := by
  have hc : ({} : Decoder).calls (.start [] :: [[0xD6, 0xC3, 0xC4, 0x53, 0, 0, 7, 5, 0, 0, 2, 0, 6, 0x61]].map .chunk) =
      .ok ([⟨true, []⟩, ⟨true, []⟩], { top := overlongLevel, nested := [] }) := rfl
  obtain ⟨hf, h1⟩ := calls_start_feed (d := {}) rfl hc (by simp)
  have e : overlongLevel = overlongLevel.setUnparsed ([6, 0x61] ++ []) := by
    have h := overlong_facts.2.2.1
    generalize overlongLevel = L at *
    cases L
    subst h
    rfl
  have h2 := hf.feed h1
  rw [e] at h2
  have h3 := overlong_calls cs h2
  rw [← e, List.nil_append] at h3
  refine ⟨_, calls_append_of hc h3, ?_, ?_⟩
  · rw [heldInput_leaf rfl]
    simp [Level.setUnparsed, Nat.add_comm]
    omega
  · simp [Decoder.finish, Level.setUnparsed, Level.isComplete, overlong_facts.1, overlong_facts.2.1]

end Vcd.Props
