import Verif.Spec.Log
import Verif.Proof.Log
import Verif.Proof.Sessions
import Verif.Proof.DebugCalls

/-!
# Histories of calls of a decoder, and its messages
-/

namespace Vcd
open Spec

theorem misuse_not_passing {a : Bool} {c : DecoderCall} {x : Site} (h : misuse a c = some x) : x.inPassing = false := by
  cases c <;> cases a <;> simp [misuse] at h <;> subst h <;> rfl

theorem inputSites_not_passing : ∀ x ∈ inputSites, x.inPassing = false := by decide

theorem passingLog_nil {d : Decoder} (h : DecTyped d) (c : DecoderCall) : d.passingLog c = [] := by
  unfold Decoder.passingLog
  cases hx : d.callSite c with
  | none => rfl
  | some x =>
    have : x.inPassing = false := by
      rcases callSite_misuse h hx with h1 | ⟨_, _, _, h1, _⟩
      · exact misuse_not_passing h1
      · exact inputSites_not_passing x h1
    simp [messageIf, this]

/-- The messages of one call, given when those of `DecodeChunk` are written. -/
theorem callLog_explains {P : Message → Prop} (hP : Serious P) {d : Decoder} (h : DecTyped d) (c : DecoderCall)
    (hchunk : ∀ data, c = .chunk data →
      (Reported P (decodeChunkLogFuel (d.depthBound data) d.top d.nested data) ↔
        ∃ L' out, decodeChunkFuel (d.depthBound data) d.top d.nested data = .error L' out))
    {r : DecoderReply} {d' : Decoder} (hc : d.call c = .ok (r, d')) :
    Reported P (d.callLog c) ↔ r.ret = false ∨ misuse d.top.started c ≠ none := by
  unfold Decoder.callLog
  rw [passingLog_nil h, List.nil_append]
  have hone {c : Prop} [Decidable c] {m : Message} (hm : m ≠ .badTable) : Reported P (messageIf c m) ↔ c := by
    unfold messageIf Reported; split <;> simp_all [hP m hm]
  cases c with
  | start dict =>
    simp only [Decoder.call, Except.ok.injEq, Prod.mk.injEq] at hc
    dsimp only
    rw [hone (by simp), ← hc.1]
    cases d.top.started <;> simp [misuse]
  | finish =>
    simp only [Decoder.call, Except.ok.injEq, Prod.mk.injEq] at hc
    rw [← hc.1]
    dsimp only [Decoder.finishLog, Decoder.finish]
    cases d.top.started with
    | false => simp [misuse, Reported, hP .finishNotStarted]
    | true => simp [misuse, hone]
  | setMaxFile n =>
    simp only [Decoder.call, Except.ok.injEq, Prod.mk.injEq] at hc
    rw [← hc.1]
    simp [Decoder.setMaxFile, misuse, Reported]
  | setMaxWin n =>
    simp only [Decoder.call, Except.ok.injEq, Prod.mk.injEq] at hc
    rw [← hc.1]
    dsimp only
    rw [hone (by simp)]
    unfold Decoder.setMaxWin
    split <;> simp_all [misuse]
  | setAllowTarget b =>
    simp only [Decoder.call, Except.ok.injEq, Prod.mk.injEq] at hc
    dsimp only
    rw [hone (by simp), ← hc.1]
    cases d.top.started <;> simp [misuse]
  | chunk data =>
    dsimp only
    rw [hchunk data rfl]
    have hm : misuse d.top.started (.chunk data) ≠ none → r.ret = false := by
      cases hs : d.top.started with
      | true => simp [misuse]
      | false =>
        rw [chunk_stopped hs] at hc
        simp only [Except.ok.injEq, Prod.mk.injEq] at hc
        simp [← hc.1]
    have : (∃ L' out, decodeChunkFuel (d.depthBound data) d.top d.nested data = .error L' out) ↔ r.ret = false := by
      simp only [Decoder.call, Decoder.decodeChunk] at hc
      cases hr : decodeChunkFuel (d.depthBound data) d.top d.nested data with
      | fault f => simp [hr] at hc
      | error L o => simp only [hr, Except.ok.injEq, Prod.mk.injEq] at hc; simp [← hc.1]
      | ok L ns o => simp only [hr, Except.ok.injEq, Prod.mk.injEq] at hc; simp [← hc.1]
    rw [this]
    grind

/-! ## Files without a code table of their own -/

/-- What is known of a decoder when `s` has been passed of a file. -/
def Passed (d : Decoder) (s : Bytes) : Prop :=
  (d.top.cache = none → d.nested = [] ∧ d.top.unparsed = s) ∧ (d.nested ≠ [] → CustomTable s)

theorem decodeWindowBody_cache_eod {L : Level} {w : OpenWindow} {c : AddrCache} {s : Bytes} {L' : Level} {rest : Bytes}
    (h : decodeWindowBody L w c s = .endOfData L' rest) : L'.cache.isSome := by
  unfold decodeWindowBody at h
  dsimp only at h
  (repeat' split at h) <;> first | (simp only [WinResult.endOfData.injEq] at h; rw [← h.1]; rfl) | simp at h

theorem decodeWindow_cache_eod {L L' : Level} (hc : L.cache.isSome) {s rest : Bytes} (h : decodeWindow L s = .endOfData L' rest) :
    L'.cache.isSome := by
  unfold decodeWindow at h
  (repeat' split at h) <;> first
    | exact decodeWindowBody_cache_eod h
    | (simp only [WinResult.endOfData.injEq] at h; rw [← h.1]; exact hc)
    | simp at h

theorem windowLoop_cache {fuel : Nat} {L : Level} (hc : L.cache.isSome) {s out : Bytes} {L' : Level} {rest out' : Bytes}
    (h : windowLoop fuel L s out = .done L' rest out') : L'.cache.isSome := by
  induction fuel generalizing L s out with
  | zero => simp [windowLoop] at h
  | succ fuel ih =>
    rw [windowLoop] at h
    split at h
    · simp only [WindowsResult.done.injEq] at h; rw [← h.1]; exact hc
    · cases hw : decodeWindow L s with
      | fault => simp [hw] at h
      | error => simp [hw] at h
      | endOfData L1 r1 =>
        simp only [hw, WindowsResult.done.injEq] at h
        rw [← h.1]
        exact decodeWindow_cache_eod hc hw
      | ok L1 r1 =>
        have := decodeWindow_cache hw
        simp only [hw] at h
        split at h
        · simp only [WindowsResult.done.injEq] at h; rw [← h.1]; exact this
        · split at h
          · exact ih (by simpa [Level.flush] using this) h
          · exact ih this h

theorem decodeChunkWindows_cache {L : Level} (hc : L.cache.isSome) {s : Bytes} {L' : Level} {ns : List Level} {o : Bytes}
    (h : decodeChunkWindows L s = .ok L' ns o) : L'.cache.isSome := by
  unfold decodeChunkWindows at h
  cases hw : windowLoop (s.length + 2) L s [] with
  | fault f => simp [hw] at h
  | error f => simp [hw] at h
  | done a b c =>
    simp only [hw, endChunk_eq, ChunkResult.ok.injEq] at h
    rw [← h.1]
    exact windowLoop_cache (L' := a) hc hw

theorem afterCodeTableChunk_cache {L : Level} (hc : L.cache.isSome) {n : Level} {ns : List Level} {s text : Bytes} {L' : Level}
    {ns' : List Level} {o : Bytes} (h : afterCodeTableChunk L n ns s text = .ok L' ns' o) : L'.cache.isSome := by
  unfold afterCodeTableChunk at h
  dsimp only at h
  split at h
  · simp only [endChunk_eq, ChunkResult.ok.injEq] at h
    rw [← h.1]; exact hc
  · split at h
    · simp at h
    · split at h
      · split at h
        · simp at h
        · exact decodeChunkWindows_cache (by simpa using hc) h
      · simp at h

theorem Passed.chunk {d : Decoder} {s data : Bytes} (h : Passed d s) (hs : d.top.started = true) {o : Bytes} {d' : Decoder}
    (hc : d.call (.chunk data) = .ok (⟨true, o⟩, d')) : Passed d' (s ++ data) := by
  simp only [Decoder.call, Decoder.decodeChunk] at hc
  obtain ⟨n, hn⟩ : ∃ n, d.depthBound data = n + 1 := ⟨_, rfl⟩
  rw [hn] at hc
  cases hr : decodeChunkFuel (n + 1) d.top d.nested data with
  | fault f => simp [hr] at hc
  | error L o => simp [hr] at hc
  | ok L ns o =>
    simp only [hr, Except.ok.injEq, Prod.mk.injEq] at hc
    rw [← hc.2]
    clear hc
    obtain ⟨top, nested⟩ := d
    dsimp only at hr hs h
    rw [decodeChunkFuel, if_neg (by simp [hs])] at hr
    dsimp only at hr
    -- after the file header
    have after (L0 : Level) (h0 : L0.cache.isSome) (ns0 : List Level) (u : Bytes) (E : Level)
        (hr : (match ns0 with
          | [] => decodeChunkWindows L0 u
          | n1 :: ns1 =>
            match decodeChunkFuel n n1 ns1 u with
            | .fault f => .fault f
            | .error _ _ => .error E []
            | .ok n' ns' text => afterCodeTableChunk L0 n' ns' u text : ChunkResult) = .ok L ns o)
        (hns : ns0 ≠ [] → CustomTable (s ++ data)) :
        Passed ⟨L, ns⟩ (s ++ data) := by
      cases ns0 with
      | nil =>
        have h1 := decodeChunkWindows_cache h0 hr
        have h2 := decodeChunkWindows_nested _ _ hr
        exact ⟨fun hx => by dsimp only at hx; simp [hx] at h1, fun hx => absurd h2 hx⟩
      | cons n1 ns1 =>
        dsimp only at hr
        cases hk : decodeChunkFuel n n1 ns1 u with
        | fault => simp [hk] at hr
        | error => simp [hk] at hr
        | ok n' ns' text =>
          simp only [hk] at hr
          have h1 := afterCodeTableChunk_cache h0 hr
          exact ⟨fun hx => by dsimp only at hx; simp [hx] at h1, fun _ => hns (by simp)⟩
    cases hk : top.cache with
    | some c =>
      simp only [hk] at hr
      exact after top (by simp [hk]) nested _ _ hr (fun hx => CustomTable.append (h.2 hx) _)
    | none =>
      obtain ⟨e1, e2⟩ := h.1 hk
      dsimp only at e1 e2
      subst e1
      simp only [hk, e2] at hr
      cases hf : readFileHeader (s ++ data) with
      | error => simp [hf] at hr
      | endOfData =>
        simp only [hf, endChunk_eq, ChunkResult.ok.injEq] at hr
        rw [← hr.1, ← hr.2.1]
        exact ⟨fun _ => ⟨rfl, rfl⟩, fun hx => absurd rfl hx⟩
      | ok hdr rest =>
        simp only [hf] at hr
        cases hcs : hdr.caches with
        | none =>
          simp only [hcs] at hr
          exact after { top with version := hdr.version, cache := some AddrCache.newDefault, unparsed := s } rfl [] _ {} hr (fun hx => absurd rfl hx)
        | some p =>
          simp only [hcs] at hr
          refine after { top with version := hdr.version, cache := some (AddrCache.new p.1 p.2), tableString := [], unparsed := s } rfl
            [Level.forCodeTable] _ _ hr (fun _ => ?_)
          have := (readFileHeader_info hf).2
          by_cases hp : CustomTable (s ++ data)
          · exact hp
          · rw [this hp] at hcs; simp at hcs

/-- The same for all calls. -/
def PassedInv (d : Decoder) (a : Bool × Bytes) : Prop := a.1 = d.top.started ∧ (d.top.started = true → Passed d a.2)

theorem PassedInv.new : PassedInv {} (false, []) := ⟨rfl, fun h => by simp at h⟩

theorem PassedInv.call {d : Decoder} {a : Bool × Bytes} (h : PassedInv d a) (hi : DecInv d) {c : DecoderCall} {r : DecoderReply} {d' : Decoder}
    (hc : d.call c = .ok (r, d')) : PassedInv d' (fileStep a (c, r)) := by
  have hact := call_active hi hc
  obtain ⟨a1, a2⟩ := a
  obtain ⟨h1, h2⟩ := h
  dsimp only at h1 h2
  subst h1
  cases c with
  | start dict =>
    simp only [Decoder.call, Except.ok.injEq, Prod.mk.injEq] at hc
    obtain ⟨_, rfl⟩ := hc
    by_cases hs : d.top.started = true
    · have : d.start dict = d := by simp [Decoder.start, hs]
      rw [this]
      simp only [fileStep, hs, if_true]
      exact ⟨hs.symm, h2⟩
    · have hs' : d.top.started = false := by simpa using hs
      simp only [fileStep, hs', Bool.false_eq_true, if_false]
      refine ⟨by rw [hact]; rfl, fun _ => ?_⟩
      simp [Passed, Decoder.start, Level.start, Level.reset, hs']
  | finish =>
    simp only [Decoder.call, Except.ok.injEq, Prod.mk.injEq] at hc
    obtain ⟨_, rfl⟩ := hc
    exact ⟨rfl, fun h => by simp [Decoder.finish, Level.reset] at h⟩
  | setMaxFile n =>
    simp only [Decoder.call, Except.ok.injEq, Prod.mk.injEq] at hc
    obtain ⟨_, rfl⟩ := hc
    exact ⟨rfl, h2⟩
  | setMaxWin n =>
    simp only [Decoder.call, Except.ok.injEq, Prod.mk.injEq] at hc
    obtain ⟨_, rfl⟩ := hc
    unfold Decoder.setMaxWin
    split <;> exact ⟨rfl, h2⟩
  | setAllowTarget b =>
    simp only [Decoder.call, Except.ok.injEq, Prod.mk.injEq] at hc
    obtain ⟨_, rfl⟩ := hc
    unfold Decoder.setAllowTarget
    split <;> exact ⟨rfl, h2⟩
  | chunk data =>
    simp only [activeStep] at hact
    simp only [fileStep]
    split
    · rename_i hx
      simp only [Bool.and_eq_true] at hx
      obtain ⟨ret, out⟩ := r
      dsimp only at hx
      rw [hx.2] at hc
      exact ⟨by rw [hact]; simp [hx], fun _ => (h2 hx.1).chunk hx.1 hc⟩
    · rename_i hx
      have : d'.top.started = false := by rw [hact]; simpa using hx
      exact ⟨this.symm, fun h => by simp [this] at h⟩

theorem PassedInv.calls {d d' : Decoder} {a : Bool × Bytes} (h : PassedInv d a) (hi : DecInv d) {cs : List DecoderCall} {rs : List DecoderReply}
    (hc : d.calls cs = .ok (rs, d')) : PassedInv d' ((cs.zip rs).foldl fileStep a) := by
  induction cs generalizing d a rs with
  | nil =>
    simp only [Decoder.calls, Except.ok.injEq, Prod.mk.injEq] at hc
    rw [← hc.2]; exact h
  | cons c cs ih =>
    obtain ⟨r, d1, rs', h1, h2, rfl⟩ := calls_cons_ok hc
    rw [List.zip_cons_cons, List.foldl_cons]
    exact ih (h.call hi h1) (hi.call h1) h2

/-- The chunk that continues a file without a code table of its own. -/
theorem plain_chunk_explains {P : Message → Prop} (hP : Serious P) {d : Decoder} {a : Bool × Bytes} (h : PassedInv d a) {data : Bytes}
    (hp : ¬ CustomTable (a.2 ++ data)) :
    Reported P (decodeChunkLogFuel (d.depthBound data) d.top d.nested data) ↔
        ∃ L' out, decodeChunkFuel (d.depthBound data) d.top d.nested data = .error L' out := by
  by_cases hs : d.top.started = true
  · have hf := h.2 hs
    have hn : d.nested = [] := by
      by_cases hn : d.nested = []
      · exact hn
      · exact absurd (CustomTable.append (hf.2 hn) data) hp
    rw [hn]
    refine decodeChunk_explains_plain hP _ _ _ fun hx hdr rest hr => ?_
    rw [(hf.1 hx).2] at hr
    exact (readFileHeader_info hr).2 hp
  · have hs' : d.top.started = false := by simpa using hs
    obtain ⟨n, hn⟩ : ∃ n, d.depthBound data = n + 1 := ⟨_, rfl⟩
    rw [hn, decodeChunkFuel, decodeChunkLogFuel]
    simp [hs', Reported, hP (.fatal .notStarted)]

end Vcd
