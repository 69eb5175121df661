import Verif.Proof.DebugCalls

/-!
# A window that makes a debug build of the decoder exit because the position passes 2^31
-/

namespace Vcd
open Spec

/-- Source segment of 2^31 - 1 bytes, ADD of one byte, COPY of four. -/
def negWin : Bytes := [1, 0x87, 0xFF, 0xFF, 0xFF, 0x7F, 0, 9, 5, 0, 1, 2, 1, 0x61, 2, 20, 0]

/-- The file. -/
def negFile : Bytes := [0xD6, 0xC3, 0xC4, 0, 0] ++ negWin

/-- Its header. -/
def negHdr (src : Bytes) : WinHeader :=
  { srcLen := 2147483647, source := src, targetLen := 5, checksum := none, interleaved := false,
    dataLen := 1, instLen := 2, addrLen := 1 }

theorem neg_header {L : Level} (h : L.dict.length = 2147483647) (hd : L.decoded = []) (ht : L.maxWin = 67108864)
    (hf : L.maxFile = 67108864) (htot : L.total = 0) (hp : L.planned = none) (hv : L.version = 0) :
    readHeader L negWin = .ok (negHdr (L.dict.take 2147483647)) [0x61, 2, 20, 0] := by
  unfold readHeader Level.wouldExceed Level.allowExtensions
  rw [h, hd, ht, hf, htot, hp, hv]
  cases L.allowTarget <;> rfl

theorem neg_body (L : Level) (src : Bytes) (c : AddrCache) (ht : L.table = defaultTable) (hd : L.decoded = []) (hs : L.startPos = 0) :
    decodeWindowBodySite L (newWindow (negHdr src)) c [0x61, 2, 20, 0] = some .negativeHere := by
  unfold decodeWindowBodySite
  rw [ht, hd, hs]
  rfl

theorem neg_site {dict : Bytes} (h : dict.length = 2147483647) :
    Decoder.debugCalls {} [.start dict, .chunk negFile] = .exits .negativeHere := by
  have e : (({} : Decoder).start dict).callSite (.chunk negFile) = some .negativeHere := by
    have hst : (({} : Decoder).start dict).top.started = true := rfl
    have hd : ∃ n, (({} : Decoder).start dict).depthBound negFile = n + 1 := ⟨_, rfl⟩
    obtain ⟨n, hn⟩ := hd
    simp only [Decoder.callSite, Decoder.decodeChunkSite, hn]
    rw [decodeChunkSiteFuel_succ hst]
    have e1 : readFileHeaderSite negFile = none := by decide +kernel
    have e2 : readFileHeader negFile = .ok ⟨0, none⟩ negWin := rfl
    have a1 : (({} : Decoder).start dict).top.cache = none := rfl
    have a2 : (({} : Decoder).start dict).top.unparsed ++ negFile = negFile := rfl
    have a3 : (({} : Decoder).start dict).nested = [] := rfl
    rw [a1, a2, a3]
    simp only
    rw [e1, e2, Option.none_or]
    simp only [nestedFor, tableSite]
    rw [windowLoopSite]
    rw [if_neg (by decide)]
    have e3 : decodeWindowSite ((({} : Decoder).start dict).top.withHeader ⟨0, none⟩) negWin = some .negativeHere := by
      unfold decodeWindowSite
      have hw : ((({} : Decoder).start dict).top.withHeader ⟨0, none⟩).win = none := rfl
      rw [hw]
      simp only
      rw [neg_header h rfl rfl rfl rfl rfl rfl]
      simp only
      rw [if_neg (by decide)]
      have hc : ∃ c, ((({} : Decoder).start dict).top.withHeader ⟨0, none⟩).cache.bind AddrCache.init = some c := ⟨_, rfl⟩
      obtain ⟨c, hc⟩ := hc
      rw [hc]
      exact neg_body _ _ c rfl rfl rfl
    rw [e3]; rfl
  have e2 : Decoder.debugCall {} (.start dict) = .returns (⟨true, []⟩, ({} : Decoder).start dict) := rfl
  rw [Decoder.debugCalls, e2]
  simp only
  rw [Decoder.debugCalls, Decoder.debugCall, e]

end Vcd
