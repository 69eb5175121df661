import Verif.Proof.DebugWitness

/-!
# C59: what a debug build of the decoder adds

In a build without `NDEBUG`, `VCD_DFATAL` ends the process with `exit(1)` (src/logging.h:25-46). `Decoder.debugCalls` is a
sequence of calls in such a build, `Decoder.calls` the same calls in a release build.
-/

namespace Vcd.Props
open Vcd Vcd.Spec

/-- C59: a debug build does what a release build does for as long as it does not exit. -/
theorem debug_same_or_exits (d : Decoder) (cs : List DecoderCall) :
    (∃ x, d.debugCalls cs = .exits x) ∨ d.debugCalls cs = asRelease (d.calls cs) := debugCalls_eq d cs

/-- C59: it exits for one of two reasons: a call is out of place, or `DecodeChunk` has come to one of five messages about its
input (too large a near or same cache, too many modes, positions of 2^31 or more, a mode that the cache does not have).
For the second reason a release build goes on and returns false. The other messages of the decoder, thirteen in this model,
are never issued in any history. -/
theorem debug_exit_reasons (cs : List DecoderCall) (x : Site) (h : Decoder.debugCalls {} cs = .exits x) :
    ∃ cs1 c cs2 rs d, cs = cs1 ++ c :: cs2 ∧ Decoder.calls {} cs1 = .ok (rs, d) ∧
      (misuse (active (cs1.zip rs)) c = some x ∨
       (active (cs1.zip rs) = true ∧ x ∈ [.nearSize, .sameSize, .cacheInit, .negativeHere, .invalidMode] ∧
        ∃ data o d', c = .chunk data ∧ d.call c = .ok (⟨false, o⟩, d'))) := by
  obtain ⟨cs1, c, cs2, rs, d, h1, _, h2, h3⟩ := debugCalls_exits h
  have ha := calls_active DecInv.new h2
  refine ⟨cs1, c, cs2, rs, d, h1, h2, ?_⟩
  have ha' : active (cs1.zip rs) = d.top.started := ha.symm
  rw [ha']
  rcases callSite_misuse (DecTyped.new.calls h2) h3 with h4 | ⟨data, h4, h5, h6, o, d', h7⟩
  · exact Or.inl h4
  · exact Or.inr ⟨h5, h6, data, o, d', h4, h7⟩

/-- C59: a call that is out of place ends the process, whatever came before it. -/
theorem debug_misuse_exits (cs1 cs2 : List DecoderCall) (c : DecoderCall) (rs : List DecoderReply) (d : Decoder) (x : Site)
    (h : Decoder.debugCalls {} cs1 = .returns (rs, d)) (hm : misuse (active (cs1.zip rs)) c = some x) :
    Decoder.debugCalls {} (cs1 ++ c :: cs2) = .exits x := by
  have ha : active (cs1.zip rs) = d.top.started := (calls_active DecInv.new (debugCalls_calls h)).symm
  rw [ha] at hm
  rw [debugCalls_append h, Decoder.debugCalls, Decoder.debugCall, misuse_site hm]

/-- The hypotheses are met, with a file that was refused: the decoder has to be started again before another chunk. -/
example : ∃ rs d, Decoder.debugCalls {} [.start [1, 2], .chunk [0xD6, 0xC3], .chunk [0]] = .returns (rs, d) ∧
    rs.map DecoderReply.ret = [true, true, false] ∧
    misuse (active ([.start [1, 2], .chunk [0xD6, 0xC3], .chunk [0]].zip rs)) (.chunk []) = some .notStarted ∧
    misuse (active ([.start [1, 2], .chunk [0xD6, 0xC3], .chunk [0]].zip rs)) (.setAllowTarget true) = none :=
  ⟨_, _, rfl, rfl, rfl, rfl⟩

/-- C59: if no call is out of place and no `DecodeChunk` returns false in a release build, a debug build does the same. -/
theorem debug_build_agrees (cs : List DecoderCall) (rs : List DecoderReply) (d : Decoder)
    (h : Decoder.calls {} cs = .ok (rs, d))
    (hm : ∀ cs1 c cs2, cs = cs1 ++ c :: cs2 → misuse (active (cs1.zip rs)) c = none)
    (hf : ∀ p ∈ cs.zip rs, (∃ data, p.1 = .chunk data) → p.2.ret = true) :
    Decoder.debugCalls {} cs = .returns (rs, d) := by
  rcases debugCalls_eq {} cs with ⟨x, hx⟩ | hx
  · exfalso
    obtain ⟨cs1, c, cs2, rs1, d1, h1, h2, h3⟩ := debug_exit_reasons cs x hx
    subst h1
    obtain ⟨rs1', d1', rs2, k1, k2, k3⟩ := calls_append h
    rw [h2] at k1
    simp only [Except.ok.injEq, Prod.mk.injEq] at k1
    obtain ⟨rfl, rfl⟩ := k1
    have hl := calls_length h2
    have hz : cs1.zip rs = cs1.zip rs1 := by
      rw [k3]
      conv => lhs; rw [← List.append_nil cs1, List.zip_append (by rw [hl])]
      simp
    rcases h3 with h3 | ⟨_, _, data, o, d', rfl, h4⟩
    · have := hm cs1 c cs2 rfl
      rw [hz, h3] at this
      simp at this
    · obtain ⟨r, d2, rs', j1, _, rfl⟩ := calls_cons_ok k2
      rw [h4] at j1
      simp only [Except.ok.injEq, Prod.mk.injEq] at j1
      have := hf (.chunk data, r) (by
        rw [k3, List.zip_append (by rw [hl])]
        simp) ⟨data, rfl⟩
      rw [← j1.1] at this
      simp at this
  · rw [hx, h]
    rfl

/-- The hypotheses are met, by a small file in two chunks. -/
example : ∃ rs d, Decoder.calls {} [.setAllowTarget false, .start [], .chunk [0xD6, 0xC3, 0xC4, 0, 0, 0, 9, 3, 0, 3],
      .chunk [1, 0, 0x61, 0x62, 0x63, 4], .finish] = .ok (rs, d) ∧
    rs.map DecoderReply.ret = [true, true, true, true, true] ∧ allOut rs = [0x61, 0x62, 0x63] ∧
    (∀ n, n < 5 → misuse (active (([.setAllowTarget false, .start [], .chunk [0xD6, 0xC3, 0xC4, 0, 0, 0, 9, 3, 0, 3],
      .chunk [1, 0, 0x61, 0x62, 0x63, 4], .finish].take n).zip rs)) (([.setAllowTarget false, .start [],
      .chunk [0xD6, 0xC3, 0xC4, 0, 0, 0, 9, 3, 0, 3],
      .chunk [1, 0, 0x61, 0x62, 0x63, 4], .finish] : List DecoderCall).getD n .finish) = none) := by
  refine ⟨_, _, rfl, ?_, ?_, ?_⟩ <;> decide +kernel

/-- C59: a file without a code table of its own never makes a debug build exit, valid or not, however it is cut into chunks, if
the dictionary and the limits keep positions below 2^31 (the default limits are 2^26, so dictionaries below 2^31 - 2^26 do):
all chunks up to the one that is refused, and the refusal itself, are as in a release build. -/
theorem debug_plain_file (s : Settings) (dict : Bytes) (cs : List Bytes) (data : Bytes) (rs : List DecoderReply) (d : Decoder)
    (h1 : dict.length + s.maxWindow < 2 ^ 31) (h2 : s.maxFile + s.maxWindow < 2 ^ 31)
    (h : (configured s).calls (.start dict :: cs.map .chunk) = .ok (rs, d)) (hr : ∀ r ∈ rs, r.ret = true)
    (hp : ¬ CustomTable (cs.flatten ++ data)) :
    (configured s).debugCalls (.start dict :: (cs ++ [data]).map .chunk) =
      asRelease ((configured s).calls (.start dict :: (cs ++ [data]).map .chunk)) := by
  obtain ⟨r, d1, rs', k1, k2, rfl⟩ := calls_cons_ok h
  have hd1 : d1 = (configured s).start dict := by
    simp only [Decoder.call, Except.ok.injEq, Prod.mk.injEq] at k1
    exact k1.2.symm
  subst hd1
  obtain ⟨i1, i2⟩ := (PlainDec.start h1 h2).chunks k2 (fun r hx => hr r (by simp [hx]))
    (by rw [List.nil_append]; exact fun hx => hp (CustomTable.append hx _))
  rw [List.nil_append] at i1
  have hs := (i1.chunk hp).1
  rcases debugCalls_eq (configured s) (.start dict :: (cs ++ [data]).map .chunk) with ⟨x, hx⟩ | hx
  · exfalso
    have hst : (configured s).debugCalls [.start dict] = .returns ([r], (configured s).start dict) := by
      rw [Decoder.debugCalls, Decoder.debugCall, k1]
      rfl
    have hall : (configured s).debugCalls (.start dict :: cs.map .chunk) = .returns (r :: rs', d) := by
      have := debugCalls_append (cs2 := cs.map .chunk) hst
      rw [i2] at this
      exact this
    rw [List.map_append, List.map_cons, List.map_nil, ← List.cons_append, debugCalls_append hall] at hx
    rw [Decoder.debugCalls, Decoder.debugCall, hs] at hx
    cases hc : d.call (.chunk data) with
    | error f => simp [hc] at hx
    | ok q => simp [hc, Decoder.debugCalls] at hx
  · exact hx

/-- The hypotheses are met: the second window refers to a mode-0 address that is not there and is refused. -/
example : ∃ rs d, (configured {}).calls (.start [1, 2] :: [[0xD6, 0xC3, 0xC4, 0, 0, 0, 9, 3, 0, 3],
      [1, 0, 0x61, 0x62, 0x63, 4]].map .chunk) = .ok (rs, d) ∧ (∀ r ∈ rs, r.ret = true) ∧
    ¬ CustomTable ([[0xD6, 0xC3, 0xC4, 0, 0, 0, 9, 3, 0, 3], [1, 0, 0x61, 0x62, 0x63, 4]].flatten ++
      [0, 7, 4, 0, 0, 1, 1, 20, 9]) ∧
    ((d.call (.chunk [0, 7, 4, 0, 0, 1, 1, 20, 9])).map fun p => p.1) = .ok ⟨false, []⟩ := by
  refine ⟨_, _, rfl, by decide +kernel, ?_, rfl⟩
  rintro ⟨b, h1, h2⟩
  simp only [List.flatten_cons, List.flatten_nil, List.append_nil, List.cons_append, List.nil_append,
    List.getElem?_cons_succ, List.getElem?_cons_zero, Option.some.injEq] at h1
  rw [← h1] at h2
  exact absurd h2 (by decide)

/-! ## The five messages about the input are reached -/

/-- C59: a file can end a debug build: size of the near cache. -/
theorem debug_exit_near : Decoder.debugCalls {} [.start [], .chunk [0xD6, 0xC3, 0xC4, 0, 2, 0x82, 0, 0]] = .exits .nearSize := by
  decide +kernel

/-- C59: size of the same cache. -/
theorem debug_exit_same : Decoder.debugCalls {} [.start [], .chunk [0xD6, 0xC3, 0xC4, 0, 2, 0, 0x82, 0]] = .exits .sameSize := by
  decide +kernel

/-- A file whose code table is a copy of the default one, with these cache sizes and this first window. -/
def copiedTable (near same window : Bytes) : Bytes :=
  [0xD6, 0xC3, 0xC4, 0, 2] ++ near ++ same ++
    [0xD6, 0xC3, 0xC4, 0, 0, 1, 0x8C, 0, 0, 10, 0x8C, 0, 0, 0, 3, 1, 0x13, 0x8C, 0, 0] ++ window

/-- C59: number of modes (near cache 200, same cache 100). -/
theorem debug_exit_init : Decoder.debugCalls {} [.start [],
    .chunk (copiedTable [0x81, 0x48] [100] [0, 9, 3, 0, 3, 1, 0, 0x61, 0x62, 0x63, 4])] = .exits .cacheInit := by
  decide +kernel

/-- C59: a mode that the address cache does not have. With empty caches the default table is not valid; it is refused as a
custom table, but is then used all the same, because it is the table that was there before. -/
theorem debug_exit_mode : Decoder.debugCalls {} [.start [],
    .chunk (copiedTable [0] [0] [0, 12, 8, 0, 4, 2, 1, 0x61, 0x62, 0x63, 0x64, 5, 0x34, 0])] = .exits .invalidMode := by
  decide +kernel

/-- C59: a position of 2^31. The dictionary has 2^31 - 1 bytes and is all of the source segment. -/
theorem debug_exit_here (dict : Bytes) (h : dict.length = 2 ^ 31 - 1) :
    Decoder.debugCalls {} [.start dict, .chunk ([0xD6, 0xC3, 0xC4, 0, 0] ++
      [1, 0x87, 0xFF, 0xFF, 0xFF, 0x7F, 0, 9, 5, 0, 1, 2, 1, 0x61, 2, 20, 0])] = .exits .negativeHere := neg_site h

/-- There is such a dictionary. -/
example : ∃ dict : Bytes, dict.length = 2 ^ 31 - 1 := ⟨List.replicate (2 ^ 31 - 1) 0, List.length_replicate⟩

end Vcd.Props
