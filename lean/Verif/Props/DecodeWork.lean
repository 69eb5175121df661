import Verif.Props.Memory
import Verif.Proof.DecodeWorkFeed

/-!
# C66: the time decoding takes does not depend on the dictionary

`Decoder.chunkSteps`, `Decoder.callsSteps` and `Decoder.decodeToSteps` (`Model.DecodeWork`) count the steps of calls: what a step is, is
said there.
-/

namespace Vcd.Props
open Vcd Vcd.Spec

/-- The counting functions of `Model.DecodeWork` compute what the decoder computes. -/
theorem work_counts_decoder (d : Decoder) (data : Bytes) : (d.decodeChunkW data).1 = d.decodeChunk data := decodeChunkW_fst d data

/-- The target data of a window that has begun. -/
theorem part_le {s : Settings} {left : CodeTable} {dict : Bytes} {cs : List Bytes} {rs : List DecoderReply} {d : Decoder}
    (h : (leftWith s left).calls (.start dict :: cs.map .chunk) = .ok (rs, d)) (hr : ∀ r ∈ rs, r.ret = true) :
    d.top.part ≤ min (heldTarget d).length s.maxWindow := by
  obtain ⟨hf, h1⟩ := calls_start_feed (d := leftWith s left) rfl h hr
  have e := start_fresh (d := leftWith s left) rfl dict
  obtain ⟨k1, _⟩ := feed_held hf (Kept.start (leftWith s left) s.maxWindow rfl dict) (by rw [e]; exact Nat.le_refl _) h1
  have hL := (hf.feed h1).chain.node.inv
  unfold heldTarget Level.part
  cases hw : d.top.win with
  | none =>
    have := hL.closed hw
    omega
  | some w =>
    have h2 := (hL.opened w hw).2.1
    have h3 := (k1.openWin w hw).2
    omega

/-- C66. A call of `DecodeChunk`, in the middle of any delta without a custom code table (bit 1 of the fifth byte), takes a number of
steps that is at most linear in the size of the chunk, of the input that the decoder has kept, of the part of the current window that
has been decoded before, and of what is output. If the call fails, the maximum size of the target takes the place of the latter. The
dictionary, its size and the sizes of the target and of the delta before this call do not matter. -/
theorem chunk_work_is_linear (s : Settings) (left : CodeTable) (dict : Bytes) (cs : List Bytes) (rs : List DecoderReply) (d : Decoder)
    (h : (leftWith s left).calls (.start dict :: cs.map .chunk) = .ok (rs, d)) (hr : ∀ r ∈ rs, r.ret = true) (c : Bytes)
    (hb : (cs.flatten ++ c).getD 4 0 &&& 2 = 0) (r : DecoderReply) (e : Decoder) (hc : d.call (.chunk c) = .ok (r, e)) :
    d.chunkSteps c ≤ 139 * (heldInput d + c.length) + 1563 + min (heldTarget d).length s.maxWindow +
      4 * (if r.ret then r.out.length else s.maxFile) := by
  have hpart := part_le h hr
  obtain ⟨hf, h1⟩ := calls_start_feed (d := leftWith s left) rfl h hr
  have hp := PlainFed.start (d := leftWith s left) rfl dict
  have e0 := start_fresh (d := leftWith s left) rfl dict
  obtain ⟨q1, _⟩ := hp.chunks (full := cs.flatten ++ c) (by simp) hb h1 (Nat.le_refl _)
  obtain ⟨p1, p2⟩ := q1.chunk (c := c) (full := cs.flatten ++ c) (by simp) hb
  rw [heldInput_leaf q1.leaf]
  simp only [Decoder.call] at hc
  rw [List.length_append] at p1 p2
  cases hx : d.decodeChunk c with
  | fault f => simp [hx] at hc
  | ok L ns out =>
    simp only [hx, Except.ok.injEq, Prod.mk.injEq] at hc
    obtain ⟨rfl, _⟩ := hc
    have := (p1 _ _ _ hx).2.1
    simp only [if_true]
    omega
  | error L out =>
    simp only [hx, Except.ok.injEq, Prod.mk.injEq] at hc
    obtain ⟨rfl, _⟩ := hc
    have := p2 (by intro L ns out h; rw [hx] at h; cases h)
    have hm : (leftWith s left).top.maxFile = s.maxFile := rfl
    simp only [Bool.false_eq_true, if_false]
    omega

/-- The hypotheses are met, by a call that completes a window. -/
example : ∃ rs d r e, (leftWith {} defaultTable).calls (.start [] :: [[0xD6, 0xC3, 0xC4, 0, 0, 0, 9, 3, 0, 3]].map .chunk) = .ok (rs, d) ∧
    (∀ r ∈ rs, r.ret = true) ∧ ([[0xD6, 0xC3, 0xC4, 0, 0, 0, 9, 3, 0, 3]].flatten ++ [1, 0, 0x61, 0x62, 0x63, 4] : Bytes).getD 4 0 &&& 2 = 0 ∧
    d.call (.chunk [1, 0, 0x61, 0x62, 0x63, 4]) = .ok (r, e) ∧ r = ⟨true, [0x61, 0x62, 0x63]⟩ ∧
    d.chunkSteps [1, 0, 0x61, 0x62, 0x63, 4] = 803 := by
  refine ⟨_, _, _, _, rfl, ?_, ?_, rfl, ?_, ?_⟩ <;> decide +kernel

/-- C66. `VCDiffDecoder::Decode` of a delta without a custom code table takes a number of steps that is at most linear in the size of
the delta and of the target, whatever dictionary is given; and if the delta is rejected, in the maximum size of the target. -/
theorem decode_work_is_linear (s : Settings) (left : CodeTable) (dict delta : Bytes) (hb : delta.getD 4 0 &&& 2 = 0) (ret : Bool)
    (target : Bytes) (e : Decoder) (h : (leftWith s left).decodeTo dict delta = .ok ((ret, target), e)) :
    (leftWith s left).decodeToSteps dict delta ≤ 139 * delta.length + 1564 + 4 * (if ret then target.length else s.maxFile) := by
  have hp := PlainFed.start (d := leftWith s left) rfl dict
  have e0 := start_fresh (d := leftWith s left) rfl dict
  obtain ⟨p1, p2⟩ := hp.chunk (c := delta) (full := delta) (by simp) hb
  have hu : ((leftWith s left).start dict).top.unparsed = [] := by rw [e0]; rfl
  have hpart : ((leftWith s left).start dict).top.part = 0 := by rw [e0]; rfl
  have hm : (leftWith s left).top.maxFile = s.maxFile := rfl
  rw [hu, List.nil_append, hpart] at p1 p2
  unfold Decoder.decodeToSteps
  simp only [Decoder.decodeTo, Decoder.call] at h
  cases hx : ((leftWith s left).start dict).decodeChunk delta with
  | fault f => simp [hx] at h
  | ok L ns out =>
    obtain ⟨q1, q2, _⟩ := p1 _ _ _ hx
    simp only [hx, Bool.true_eq_false, if_false, Except.ok.injEq, Prod.mk.injEq] at h
    obtain ⟨⟨h1, rfl⟩, _⟩ := h
    have := q1.total
    have := q1.limit.1
    split <;> omega
  | error L out =>
    simp only [hx, if_true, Except.ok.injEq, Prod.mk.injEq] at h
    obtain ⟨⟨rfl, rfl⟩, _⟩ := h
    have := p2 (by intro L ns out h; rw [hx] at h; cases h)
    simp only [Bool.false_eq_true, if_false]
    omega

/-- The hypotheses are met, by a delta that copies twice from a dictionary and by one that is rejected. -/
example : ([(true, [0x61, 0x62, 0x63, 0x64, 0x61, 0x62, 0x63, 0x64])] = ((leftWith {} defaultTable).decodeTo [0x61, 0x62, 0x63, 0x64]
        [0xD6, 0xC3, 0xC4, 0, 0, 1, 4, 0, 9, 8, 0, 0, 2, 2, 20, 20, 0, 0]).toOption.toList.map Prod.fst ∧
      (leftWith {} defaultTable).decodeToSteps [0x61, 0x62, 0x63, 0x64]
        [0xD6, 0xC3, 0xC4, 0, 0, 1, 4, 0, 9, 8, 0, 0, 2, 2, 20, 20, 0, 0] = 814) ∧
    [(false, [])] = ((leftWith {} defaultTable).decodeTo [0x61] [0xD6, 0xC3, 0xC4, 0, 0, 1, 4, 0, 9]).toOption.toList.map Prod.fst := by
  decide +kernel

/-- C66. A delta without a custom code table that is fed in chunks: the size of the delta and a constant are counted once for each
chunk, the size of the output once. -/
theorem chunks_work (s : Settings) (left : CodeTable) (dict : Bytes) (cs : List Bytes) (hb : cs.flatten.getD 4 0 &&& 2 = 0)
    (rs : List DecoderReply) (d : Decoder) (h : (leftWith s left).calls (.start dict :: cs.map .chunk) = .ok (rs, d))
    (hr : ∀ r ∈ rs, r.ret = true) :
    (leftWith s left).callsSteps (.start dict :: cs.map .chunk) ≤
      1 + cs.length * (139 * cs.flatten.length + 1563) + 4 * (allOut rs).length := by
  obtain ⟨hf, h1⟩ := calls_start_feed (d := leftWith s left) rfl h hr
  have hp := PlainFed.start (d := leftWith s left) rfl dict
  have e0 := start_fresh (d := leftWith s left) rfl dict
  have hu : ((leftWith s left).start dict).top.unparsed = [] := by rw [e0]; rfl
  have hpart : ((leftWith s left).start dict).top.part = 0 := by rw [e0]; rfl
  obtain ⟨_, q2⟩ := hp.chunks (full := cs.flatten) (N := cs.flatten.length) (by simp) hb h1 (by rw [hu]; simp)
  have e1 : (leftWith s left).callsSteps (.start dict :: cs.map .chunk) =
      1 + ((leftWith s left).start dict).callsSteps (cs.map .chunk) := rfl
  omega

/-- The hypotheses are met, by a window in three chunks. -/
example : ∃ rs d, ([[0xD6, 0xC3, 0xC4, 0, 0, 0, 9, 3], [0, 3, 1, 0, 0x61], [0x62, 0x63, 4]] : List Bytes).flatten.getD 4 0 &&& 2 = 0 ∧
    (leftWith {} defaultTable).calls (.start [] ::
      [[0xD6, 0xC3, 0xC4, 0, 0, 0, 9, 3], [0, 3, 1, 0, 0x61], [0x62, 0x63, 4]].map .chunk) = .ok (rs, d) ∧
    (∀ r ∈ rs, r.ret = true) ∧ allOut rs = [0x61, 0x62, 0x63] ∧ (leftWith {} defaultTable).callsSteps (.start [] ::
      [[0xD6, 0xC3, 0xC4, 0, 0, 0, 9, 3], [0, 3, 1, 0, 0x61], [0x62, 0x63, 4]].map .chunk) = 844 := by
  refine ⟨_, _, by decide +kernel, rfl, ?_, ?_, ?_⟩ <;> decide +kernel

/-! ## Custom code tables -/

/-- C66, for every delta: custom code tables are deltas, which may have custom code tables. Each of the decoders for these takes a number
of steps that is linear in the size of the input, and there is not more than one for seven bytes of it. Again the dictionary does not
matter. -/
theorem chunk_work_with_tables (s : Settings) (left : CodeTable) (dict : Bytes) (cs : List Bytes) (rs : List DecoderReply) (d : Decoder)
    (h : (leftWith s left).calls (.start dict :: cs.map .chunk) = .ok (rs, d)) (hr : ∀ r ∈ rs, r.ret = true) (c : Bytes)
    (r : DecoderReply) (e : Decoder) (hc : d.call (.chunk c) = .ok (r, e)) :
    d.chunkSteps c ≤
      (d.nested.length + 1 + (heldInput d + c.length) / 7) * (10847 * (heldInput d + c.length) + 142357) +
      min (heldTarget d).length s.maxWindow + 4 * (if r.ret then r.out.length else s.maxFile) := by
  have hpart := part_le h hr
  obtain ⟨hf, h1⟩ := calls_start_feed (d := leftWith s left) rfl h hr
  have hp := AnyFed.start (d := leftWith s left) rfl dict
  obtain ⟨q1, _⟩ := hp.chunks h1 (Nat.le_refl _)
  obtain ⟨p1, p2⟩ := q1.chunk c
  unfold levelSteps at p1 p2
  simp only [Decoder.call] at hc
  cases hx : d.decodeChunk c with
  | fault f => simp [hx] at hc
  | ok L ns out =>
    simp only [hx, Except.ok.injEq, Prod.mk.injEq] at hc
    obtain ⟨rfl, _⟩ := hc
    have := (p1 _ _ _ hx).2.1
    simp only [if_true]
    omega
  | error L out =>
    simp only [hx, Except.ok.injEq, Prod.mk.injEq] at hc
    obtain ⟨rfl, _⟩ := hc
    have := p2 (by intro L ns out h; rw [hx] at h; cases h)
    have hm : (leftWith s left).top.maxFile = s.maxFile := rfl
    simp only [Bool.false_eq_true, if_false]
    omega

/-- C66, for every delta: `VCDiffDecoder::Decode`. -/
theorem decode_work_with_tables (s : Settings) (left : CodeTable) (dict delta : Bytes) (ret : Bool)
    (target : Bytes) (e : Decoder) (h : (leftWith s left).decodeTo dict delta = .ok ((ret, target), e)) :
    (leftWith s left).decodeToSteps dict delta ≤ 1 + (1 + delta.length / 7) * (10847 * delta.length + 142357) +
      4 * (if ret then target.length else s.maxFile) := by
  have hp := AnyFed.start (d := leftWith s left) rfl dict
  have e0 := start_fresh (d := leftWith s left) rfl dict
  obtain ⟨p1, p2⟩ := hp.chunk delta
  have hu : heldInput ((leftWith s left).start dict) = 0 := by rw [e0]; rfl
  have hn : ((leftWith s left).start dict).nested.length = 0 := by rw [e0]; rfl
  have hpart : ((leftWith s left).start dict).top.part = 0 := by rw [e0]; rfl
  have hm : (leftWith s left).top.maxFile = s.maxFile := rfl
  rw [hu, hn, hpart, Nat.zero_add, Nat.zero_add] at p1 p2
  unfold levelSteps at p1 p2
  unfold Decoder.decodeToSteps
  simp only [Decoder.decodeTo, Decoder.call] at h
  cases hx : ((leftWith s left).start dict).decodeChunk delta with
  | fault f => simp [hx] at h
  | ok L ns out =>
    obtain ⟨q1, q2, _⟩ := p1 _ _ _ hx
    simp only [hx, Bool.true_eq_false, if_false, Except.ok.injEq, Prod.mk.injEq] at h
    obtain ⟨⟨h1, rfl⟩, _⟩ := h
    have := q1.total
    have := q1.limit.1
    split <;> omega
  | error L out =>
    simp only [hx, if_true, Except.ok.injEq, Prod.mk.injEq] at h
    obtain ⟨⟨rfl, rfl⟩, _⟩ := h
    have := p2 (by intro L ns out h; rw [hx] at h; cases h)
    simp only [Bool.false_eq_true, if_false]
    omega

/-- C66, for every delta, fed in chunks. -/
theorem chunks_work_with_tables (s : Settings) (left : CodeTable) (dict : Bytes) (cs : List Bytes) (rs : List DecoderReply) (d : Decoder)
    (h : (leftWith s left).calls (.start dict :: cs.map .chunk) = .ok (rs, d)) (hr : ∀ r ∈ rs, r.ret = true) :
    (leftWith s left).callsSteps (.start dict :: cs.map .chunk) ≤
      1 + cs.length * ((1 + cs.flatten.length / 7) * (10847 * cs.flatten.length + 142357)) + 4 * (allOut rs).length := by
  obtain ⟨hf, h1⟩ := calls_start_feed (d := leftWith s left) rfl h hr
  have hp := AnyFed.start (d := leftWith s left) rfl dict
  have e0 := start_fresh (d := leftWith s left) rfl dict
  have hu : heldInput ((leftWith s left).start dict) = 0 := by rw [e0]; rfl
  have hn : ((leftWith s left).start dict).nested.length = 0 := by rw [e0]; rfl
  have hpart : ((leftWith s left).start dict).top.part = 0 := by rw [e0]; rfl
  obtain ⟨_, q2⟩ := hp.chunks (N := cs.flatten.length) h1 (by rw [hu, hn]; simp)
  unfold levelSteps at q2
  have e1 : (leftWith s left).callsSteps (.start dict :: cs.map .chunk) =
      1 + ((leftWith s left).start dict).callsSteps (cs.map .chunk) := rfl
  omega

/-- The hypotheses are met, by chunks that begin two custom code tables. -/
example : ∃ rs d r e, (leftWith {} defaultTable).calls (.start [] :: [[0xD6, 0xC3, 0xC4, 0, 2, 4], [3, 0xD6, 0xC3, 0xC4, 0, 2, 4, 3]].map
      .chunk) = .ok (rs, d) ∧ (∀ r ∈ rs, r.ret = true) ∧ d.nested.length = 2 ∧
    d.call (.chunk [0xD6, 0xC3, 0xC4, 0, 0, 0, 9, 3, 0, 3, 1, 0, 0x61, 0x62, 0x63, 4]) = .ok (r, e) ∧ r.ret = true ∧
    d.chunkSteps [0xD6, 0xC3, 0xC4, 0, 0, 0, 9, 3, 0, 3, 1, 0, 0x61, 0x62, 0x63, 4] = 799 := by
  refine ⟨_, _, _, _, rfl, ?_, ?_, rfl, ?_, ?_⟩ <;> decide +kernel

/-! ## The product of the size and the number of chunks -/

/-- C66, the negative side: input that is kept is looked at again in each call. A delta of `n + 6` bytes, all of which after the header
belong to one number, that is fed byte by byte takes at least half the square of `n` steps; so in `chunks_work` the product cannot be
replaced by a sum. -/
theorem bytewise_work_is_quadratic (s : Settings) (dict : Bytes) (n : Nat) :
    ∃ rs d, (configured s).calls (.start dict :: .chunk [0xD6, 0xC3, 0xC4, 0, 0, 0] :: List.replicate n (.chunk [0x80])) = .ok (rs, d) ∧
      (∀ r ∈ rs, r = ⟨true, []⟩) ∧
      n * (n + 1) / 2 ≤
        (configured s).callsSteps (.start dict :: .chunk [0xD6, 0xC3, 0xC4, 0, 0, 0] :: List.replicate n (.chunk [0x80])) := by
  obtain ⟨e, h1, h2⟩ := InNumber.start (d := configured s) rfl dict
  obtain ⟨d, rs, k1, k2, k3⟩ := h2.calls n
  have h0 : (configured s).call (.start dict) = .ok (⟨true, []⟩, (configured s).start dict) := rfl
  refine ⟨⟨true, []⟩ :: ⟨true, []⟩ :: rs, d, ?_, ?_, ?_⟩
  · simp only [Decoder.calls, h0, h1, k1]
  · intro r hr
    simp only [List.mem_cons] at hr
    rcases hr with rfl | rfl | hr
    · rfl
    · rfl
    · exact k2 r hr
  · have e1 : (configured s).callsSteps (.start dict :: .chunk [0xD6, 0xC3, 0xC4, 0, 0, 0] :: List.replicate n (.chunk [0x80])) =
        1 + (((configured s).start dict).chunkSteps [0xD6, 0xC3, 0xC4, 0, 0, 0] + e.callsSteps (List.replicate n (.chunk [0x80]))) := by
      simp only [Decoder.callsSteps, h0, h1]
    omega

end Vcd.Props
