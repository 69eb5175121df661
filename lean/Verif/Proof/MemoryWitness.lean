import Verif.Proof.Memory
import Verif.Proof.Writer
import Verif.Props.Reuse

/-!
# Lemmas about deltas that make a decoder keep much input
-/

namespace Vcd
open Spec

/-- `StartDecoding` and chunks that are all accepted. -/
theorem calls_start_feed {d e : Decoder} (hs : d.top.started = false) {dict : Bytes} {cs : List Bytes} {rs : List DecoderReply}
    (h : d.calls (.start dict :: cs.map .chunk) = .ok (rs, e)) (hr : ∀ r ∈ rs, r.ret = true) :
    Fed (d.start dict) ∧ (d.start dict).feed cs = some (allOut rs, e) := by
  have hcall : d.call (.start dict) = .ok (⟨true, []⟩, d.start dict) := rfl
  obtain ⟨r, d1, rs', h1, h2, rfl⟩ := calls_cons_ok h
  rw [hcall] at h1
  simp only [Except.ok.injEq, Prod.mk.injEq] at h1
  obtain ⟨rfl, rfl⟩ := h1
  refine ⟨Fed.start d hs dict, ?_⟩
  have : allOut (⟨true, []⟩ :: rs') = allOut rs' := by simp [allOut]
  rw [this]
  exact calls_feed_true h2 (fun r hx => hr r (by simp [hx]))

theorem heldInput_leaf {d : Decoder} (h : d.nested = []) : heldInput d = d.top.unparsed.length := by
  simp [heldInput, h]

/-- A number that has begun with zeros and has not ended. -/
theorem parseSize_zeros (N : Nat) : parseSize (List.replicate N 0x80) = .endOfData := by
  have : ∀ N, parseVarintLoop maxVal32 0 (List.replicate N 0x80) = .endOfData := by
    intro N
    induction N with
    | zero => rfl
    | succ N ih =>
      rw [List.replicate_succ]
      simp [parseVarintLoop, ih]
  unfold parseSize parseInt32
  simp [parseVarint32, parseVarint, this]

/-- A call after whose file header no window is complete. -/
theorem chunk_waits {d : Decoder} (hs : d.top.started = false) (dict r : Bytes) (v : UInt8) (hv : v = 0 ∨ v = 0x53)
    (hr : readHeader ((d.start dict).top.withHeader { version := v, caches := none }) r = .endOfData) :
    ∃ e, d.calls [.start dict, .chunk ([0xD6, 0xC3, 0xC4, v, 0] ++ r)] = .ok ([⟨true, []⟩, ⟨true, []⟩], e) ∧
      e.nested = [] ∧ e.top.unparsed = r := by
  have hf := Fed.start d hs dict
  have e := start_fresh hs dict
  have hn : (d.start dict).nested = [] := by rw [e]
  have hc : (d.start dict).top.cache = none := by rw [e]; rfl
  have hu : (d.start dict).top.unparsed = [] := by rw [e]; rfl
  obtain ⟨w1, w2, w3, w4, _⟩ := withHeader_inv hf.chain.node hc { version := v, caches := none }
  have hrun := chunk_plain hf.chain.node hc hu hv (by decide : (0 : UInt8) &&& 3 = 0) r
  have hd : ((d.start dict).top.withHeader { version := v, caches := none }).decoded = [] := by rw [e]; rfl
  rw [decodeChunkWindows_eq, winRun_eq' w1.inv w1.quiet, decodeWindow_none w4, hr] at hrun
  simp only [Level.text, hd, List.drop_nil, List.append_nil] at hrun
  rw [← hn] at hrun
  refine ⟨{ top := ((d.start dict).top.withHeader { version := v, caches := none }).ended r, nested := [] }, ?_, rfl, rfl⟩
  simp only [Decoder.calls, Decoder.call, decodeChunk_eq, hrun]
  rw [hn]

/-- The level after a window of five bytes with a section of two bytes that begins with an ADD of five bytes. -/
def overlongLevel : Level :=
  match ({} : Decoder).calls [.start [], .chunk [0xD6, 0xC3, 0xC4, 0x53, 0, 0, 7, 5, 0, 0, 2, 0, 6, 0x61]] with
  | .ok (_, d) => d.top
  | .error _ => {}

/-- The window that is open then. -/
def overlongWindow : OpenWindow :=
  ⟨{ srcLen := 0, source := [], targetLen := 5, checksum := none, interleaved := true, dataLen := 0, instLen := 2, addrLen := 0 }, 2, none⟩

/-- The address caches then. -/
def overlongCache : AddrCache :=
  match overlongLevel.cache with
  | some c => c
  | none => AddrCache.new 0 0

theorem overlong_facts : overlongLevel.win = some overlongWindow ∧ overlongLevel.cache = some overlongCache ∧
    overlongLevel.unparsed = [6, 0x61] ∧ overlongLevel.decoded = [] ∧ overlongLevel.outPos = 0 ∧
    bodyRun (overlongLevel.env overlongWindow.hdr) (interBody overlongLevel overlongWindow overlongCache [6, 0x61]) =
      .endOfData (interBody overlongLevel overlongWindow overlongCache [6, 0x61]) := by
  decide +kernel

theorem overlong_suspended : overlongLevel.suspended overlongWindow 2 (interBody overlongLevel overlongWindow overlongCache [6, 0x61]) = overlongLevel := by
  obtain ⟨h1, h2, h3, h4, h5, h6⟩ := overlong_facts
  simp only [Level.suspended, interBody]
  generalize overlongLevel = L at *
  cases L
  simp_all [overlongWindow]

theorem overlong_step {u : Bytes} (hL : NodeInv (overlongLevel.setUnparsed ([6, 0x61] ++ u))) (z : Bytes) :
    chunkRun (overlongLevel.setUnparsed ([6, 0x61] ++ u)) [] z = .ok (overlongLevel.setUnparsed ([6, 0x61] ++ (u ++ z))) [] [] := by
  obtain ⟨h1, h2, h3, h4, h5, h6⟩ := overlong_facts
  have hc : (overlongLevel.setUnparsed ([6, 0x61] ++ u)).cache = some overlongCache := h2
  have hb : ∀ s : Bytes, decodeWindow overlongLevel ([6, 0x61] ++ s) = .endOfData overlongLevel ([6, 0x61] ++ s) := by
    intro s
    rw [decodeWindow_some h1 rfl h2, dwb_inter rfl]
    have e : interBody overlongLevel overlongWindow overlongCache ([6, 0x61] ++ s) = interBody overlongLevel overlongWindow overlongCache [6, 0x61] := rfl
    rw [e, h6]
    have e2 : (List.take overlongWindow.expected ([6, 0x61] ++ s)).length = 2 := rfl
    have e3 : (interBody overlongLevel overlongWindow overlongCache [6, 0x61]).inst.length = 2 := rfl
    have e4 : overlongWindow.expected = 2 := rfl
    simp only [e2, e3]
    simp [e4, overlong_suspended]
  rw [chunkRun_windows hL (by rw [hc]; simp)]
  have hu : (overlongLevel.setUnparsed ([6, 0x61] ++ u)).unparsed = [6, 0x61] ++ u := rfl
  rw [hu, decodeChunkWindows_eq, winRun_eq' hL.inv hL.quiet, decodeWindow_setUnparsed, List.append_assoc, hb]
  simp only [WinResult.setUnparsed, List.nil_append]
  have : (overlongLevel.setUnparsed ([6, 0x61] ++ u)).text = [] := by
    change overlongLevel.decoded.drop overlongLevel.outPos = []
    rw [h4]; rfl
  rw [this]
  congr 1

theorem overlong_calls (cs : List Bytes) {u : Bytes} (hf : Fed { top := overlongLevel.setUnparsed ([6, 0x61] ++ u), nested := [] }) :
    Decoder.calls { top := overlongLevel.setUnparsed ([6, 0x61] ++ u), nested := [] } (cs.map .chunk) =
      .ok (cs.map fun _ => ⟨true, []⟩, { top := overlongLevel.setUnparsed ([6, 0x61] ++ (u ++ cs.flatten)), nested := [] }) := by
  induction cs generalizing u with
  | nil => simp [Decoder.calls]
  | cons c cs ih =>
    have h1 := overlong_step hf.chain c
    have h2 := ih (hf.next h1)
    have hcall : Decoder.call { top := overlongLevel.setUnparsed ([6, 0x61] ++ u), nested := [] } (.chunk c) =
        .ok (⟨true, []⟩, { top := overlongLevel.setUnparsed ([6, 0x61] ++ (u ++ c)), nested := [] }) := by
      simp only [Decoder.call, decodeChunk_eq, h1]
    simp only [List.map_cons, Decoder.calls, hcall, h2]
    simp

/-- A window header that announces a data section of `N` bytes and an empty target. -/
theorem readHeader_sections {L : Level} {N : Nat} {dl dlen data : Bytes} (hx : L.wouldExceed 0 = false) (hv : L.allowExtensions = false)
    (h1 : NumCode dl (dlen.length + 4 + N)) (h2 : NumCode dlen N) (hd : data.length < N) :
    readHeader L ([0] ++ dl ++ [0, 0] ++ dlen ++ [0, 0] ++ data) = .endOfData := by
  have e1 : parseSize (dl ++ ([0, 0] ++ dlen ++ [0, 0] ++ data)) = .ok _ _ := parseSize_iff.2 ⟨dl, rfl, h1⟩
  have e2 : parseSize ([0, 0] ++ dlen ++ [0, 0] ++ data) = .ok 0 ([0] ++ dlen ++ [0, 0] ++ data) :=
    parseSize_iff.2 ⟨[0], rfl, numCode_byte' rfl (by decide)⟩
  have e3 : parseSize (dlen ++ ([0, 0] ++ data)) = .ok _ _ := parseSize_iff.2 ⟨dlen, rfl, h2⟩
  have e4 : ∀ r : Bytes, parseSize (0 :: r) = .ok 0 r := fun r => parseSize_iff.2 ⟨[0], rfl, numCode_byte' rfl (by decide)⟩
  have e0 : ∀ r : Bytes, parseWinIndicator L.dict.length L.decoded.length L.allowTarget (0 :: r) = .ok (0, 0, 0) r := by
    intro r
    simp [parseWinIndicator, parseByte, Parsed.bind, vcdSource, vcdTarget]
    decide
  have ea : [0] ++ dl ++ [0, 0] ++ dlen ++ [0, 0] ++ data = 0 :: (dl ++ ([0, 0] ++ dlen ++ [0, 0] ++ data)) := by simp
  have eb : parseDeltaIndicator ([0] ++ dlen ++ [0, 0] ++ data) = .ok () (dlen ++ ([0, 0] ++ data)) := by
    simp [parseDeltaIndicator, parseByte, Parsed.bind]
  rw [readHeader, ea, e0]
  simp only [Parsed.bind, e1, e2, hx, eb, parseSectionLengths, e3, hv]
  simp only [List.cons_append, List.nil_append, e4]
  have hlen : (0 :: 0 :: (dlen ++ 0 :: 0 :: data)).length - data.length = dlen.length + 4 := by
    simp only [List.length_append, List.length_cons]; omega
  simp
  rw [if_pos (by omega)]
  simp [hd]
end Vcd
