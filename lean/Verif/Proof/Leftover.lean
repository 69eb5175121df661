import Verif.Proof.RfcChain
import Verif.Proof.Reuse
import Verif.Proof.Nesting

/-!
# What is left of earlier uses of a decoder
-/

namespace Vcd
open Spec

/-! ### The bytes of a custom code table are not looked at before they are cleared -/

def Level.setStr (L : Level) (s : Bytes) : Level := { L with tableString := s }

def WinResult.setStr (u : Bytes) : WinResult → WinResult
  | .ok L r => .ok (L.setStr u) r
  | .endOfData L r => .endOfData (L.setStr u) r
  | r => r

def WindowsResult.setStr (u : Bytes) : WindowsResult → WindowsResult
  | .done L r o => .done (L.setStr u) r o
  | r => r

def ChunkResult.setStr (u : Bytes) : ChunkResult → ChunkResult
  | .ok L ns o => .ok (L.setStr u) ns o
  | .error L o => .error (L.setStr u) o
  | r => r

theorem decodeWindowBody_setStr (L : Level) (u : Bytes) (w : OpenWindow) (c : AddrCache) (s : Bytes) :
    decodeWindowBody (L.setStr u) w c s = (decodeWindowBody L w c s).setStr u := by
  cases hi : w.hdr.interleaved with
  | true =>
    rw [dwb_inter hi, dwb_inter hi]
    change (match bodyRun (L.env w.hdr) (interBody L w c s) with
      | .fault f => _ | .error => _ | .ok b' => _ | .endOfData b' => _) = _
    cases bodyRun (L.env w.hdr) (interBody L w c s) with
    | fault f => rfl
    | error => rfl
    | ok b =>
      simp only
      have : bodyEndOk ((L.setStr u).env w.hdr) b = bodyEndOk (L.env w.hdr) b := rfl
      rw [this]
      split <;> rfl
    | endOfData b =>
      simp only
      split <;> rfl
  | false =>
    rw [dwb_std hi, dwb_std hi]
    change (match bodyRun (L.env w.hdr) (stdBody L w c s) with
      | .fault f => _ | .error => _ | .endOfData b' => _ | .ok b' => _) = _
    cases bodyRun (L.env w.hdr) (stdBody L w c s) with
    | fault f => rfl
    | error => rfl
    | ok b =>
      simp only
      have : bodyEndOk ((L.setStr u).env w.hdr) b = bodyEndOk (L.env w.hdr) b := rfl
      rw [this]
      split <;> rfl
    | endOfData b => rfl

theorem decodeWindow_setStr (L : Level) (u : Bytes) (s : Bytes) :
    decodeWindow (L.setStr u) s = (decodeWindow L s).setStr u := by
  cases hw : L.win with
  | none =>
    rw [decodeWindow_none hw, decodeWindow_none (L := L.setStr u) hw]
    have h1 : readHeader (L.setStr u) s = readHeader L s := rfl
    have h2 : (L.setStr u).cache = L.cache := rfl
    rw [h1, h2]
    cases readHeader L s with
    | endOfData => rfl
    | error => rfl
    | ok hdr rest =>
      simp only
      cases L.cache.bind AddrCache.init with
      | none => rfl
      | some c => exact decodeWindowBody_setStr (L.opened hdr) u _ _ _
  | some w =>
    have hw' : (L.setStr u).win = some w := hw
    have h2 : (L.setStr u).cache = L.cache := rfl
    rw [decodeWindow, decodeWindow, hw, hw', h2]
    simp only
    split
    · rfl
    · cases L.cache with
      | none => rfl
      | some c => exact decodeWindowBody_setStr L u _ _ _

theorem windowLoop_setStr (fuel : Nat) (L : Level) (u s o : Bytes) :
    windowLoop fuel (L.setStr u) s o = (windowLoop fuel L s o).setStr u := by
  induction fuel generalizing L s o with
  | zero => rfl
  | succ n ih =>
    rw [windowLoop, windowLoop]
    by_cases hs : s = []
    · rw [if_pos hs, if_pos hs]; rfl
    · rw [if_neg hs, if_neg hs, decodeWindow_setStr]
      cases decodeWindow L s with
      | fault f => rfl
      | error => rfl
      | endOfData L' r => rfl
      | ok L' r =>
        simp only [WinResult.setStr]
        have h1 : (L'.setStr u).reachedPlanned = L'.reachedPlanned := rfl
        have h2 : (L'.setStr u).allowTarget = L'.allowTarget := rfl
        have h3 : (L'.setStr u).flush = (L'.flush.1.setStr u, L'.flush.2) := rfl
        rw [h1, h2, h3, ih, ih]
        split
        · rfl
        · split <;> rfl

theorem decodeChunkWindows_setStr (L : Level) (u s : Bytes) :
    decodeChunkWindows (L.setStr u) s = (decodeChunkWindows L s).setStr u := by
  rw [decodeChunkWindows, decodeChunkWindows, windowLoop_setStr]
  cases windowLoop (s.length + 2) L s [] <;> rfl

/-- Equal but for the bytes of a custom code table, which are not being collected. -/
inductive SameButStr : Decoder → Decoder → Prop
  | same {d : Decoder} : SameButStr d d
  | str {L : Level} (s : Bytes) : SameButStr { top := L, nested := [] } { top := L.setStr s, nested := [] }

inductive ChunkResult.SameButStr : ChunkResult → ChunkResult → Prop
  | same {r : ChunkResult} : SameButStr r r
  | ok {L : Level} {o : Bytes} (s : Bytes) : SameButStr (.ok L [] o) (.ok (L.setStr s) [] o)
  | error {L : Level} {o : Bytes} (s : Bytes) : SameButStr (.error L o) (.error (L.setStr s) o)

theorem decodeChunkWindows_nested (L : Level) (s : Bytes) {L' : Level} {ns : List Level} {o : Bytes}
    (h : decodeChunkWindows L s = .ok L' ns o) : ns = [] := by
  rw [decodeChunkWindows] at h
  cases hw : windowLoop (s.length + 2) L s [] with
  | fault f => simp [hw] at h
  | error f => simp [hw] at h
  | done a b c =>
    simp only [hw, endChunk_eq, ChunkResult.ok.injEq] at h
    exact h.2.1.symm

theorem windows_sameButStr (L : Level) (u s : Bytes) :
    ChunkResult.SameButStr (decodeChunkWindows L s) (decodeChunkWindows (L.setStr u) s) := by
  rw [decodeChunkWindows_setStr]
  cases hr : decodeChunkWindows L s with
  | fault f => exact .same
  | error L' o => exact .error u
  | ok L' ns o =>
    have := decodeChunkWindows_nested L s hr
    subst this
    exact .ok u

theorem chunk_sameButStr (L : Level) (u data : Bytes) :
    ChunkResult.SameButStr (chunkRun L [] data) (chunkRun (L.setStr u) [] data) := by
  rw [chunkRun_eq, chunkRun_eq, chunkStep, chunkStep]
  have h1 : (L.setStr u).started = L.started := rfl
  have h2 : (L.setStr u).cache = L.cache := rfl
  have h3 : (L.setStr u).unparsed = L.unparsed := rfl
  rw [h1, h2, h3]
  by_cases hs : L.started = false
  · rw [if_pos hs, if_pos hs]
    exact .error (L := L.reset) u
  · rw [if_neg hs, if_neg hs]
    cases L.cache with
    | some c => exact windows_sameButStr L u _
    | none =>
      simp only
      cases readFileHeader (L.unparsed ++ data) with
      | error => exact .error (L := ({ L with unparsed := [], decoded := [] } : Level).reset) u
      | endOfData => exact .ok (L := L.ended (L.unparsed ++ data)) u
      | ok hdr rest =>
        simp only
        obtain ⟨v, cs⟩ := hdr
        cases cs with
        | none => exact windows_sameButStr (L.withHeader ⟨v, none⟩) u _
        | some p => exact .same

theorem SameButStr.call {d d' : Decoder} (h : SameButStr d d') (c : DecoderCall) :
    (∃ f, d.call c = .error f ∧ d'.call c = .error f) ∨
    ∃ r e e', d.call c = .ok (r, e) ∧ d'.call c = .ok (r, e') ∧ SameButStr e e' := by
  cases h with
  | same =>
    cases hc : d.call c with
    | error f => exact Or.inl ⟨f, rfl, rfl⟩
    | ok p => exact Or.inr ⟨p.1, p.2, p.2, rfl, rfl, .same⟩
  | @str L s =>
    cases c with
    | start dict =>
      refine Or.inr ⟨_, _, _, rfl, rfl, ?_⟩
      unfold Decoder.start Level.start
      by_cases hs : L.started = true
      · have : (L.setStr s).started = true := hs
        simp only [hs, this, if_true]
        exact .str s
      · have hs' : L.started = false := by simpa using hs
        have : (L.setStr s).started = false := hs'
        simp only [hs', this, Bool.false_eq_true, if_false]
        exact .str (L := { ({ L with unparsed := [], decoded := [] } : Level).reset with dict := dict, started := true }) s
    | finish => exact Or.inr ⟨_, _, _, rfl, rfl, .str (L := L.reset) s⟩
    | setMaxFile n => exact Or.inr ⟨_, _, _, rfl, rfl, .str (L := { L with maxFile := n }) s⟩
    | setMaxWin n =>
      by_cases hn : n > targetSizeLimit
      · refine Or.inr ⟨⟨false, []⟩, _, _, ?_, ?_, .str (L := L) s⟩ <;> simp [Decoder.call, Decoder.setMaxWin, hn]
      · refine Or.inr ⟨⟨true, []⟩, _, _, ?_, ?_, .str (L := { L with maxWin := n }) s⟩ <;>
          simp [Decoder.call, Decoder.setMaxWin, hn, Level.setStr]
    | setAllowTarget b =>
      refine Or.inr ⟨_, _, _, rfl, rfl, ?_⟩
      unfold Decoder.setAllowTarget
      have : (L.setStr s).started = L.started := rfl
      simp only [this]
      split
      · exact .str s
      · exact .str (L := { L with allowTarget := b }) s
    | chunk data =>
      simp only [Decoder.call, decodeChunk_eq]
      have := chunk_sameButStr L s data
      generalize chunkRun L [] data = r at this
      generalize chunkRun (L.setStr s) [] data = r' at this
      cases this with
      | same =>
        cases r with
        | fault f => exact Or.inl ⟨f, rfl, rfl⟩
        | error L' o => exact Or.inr ⟨_, _, _, rfl, rfl, .same⟩
        | ok L' ns o => exact Or.inr ⟨_, _, _, rfl, rfl, .same⟩
      | ok s => exact Or.inr ⟨_, _, _, rfl, rfl, .str s⟩
      | error s => exact Or.inr ⟨_, _, _, rfl, rfl, .str s⟩

/-- The replies to some calls. -/
def Decoder.replies (d : Decoder) (cs : List DecoderCall) : Except Fault (List DecoderReply) := (d.calls cs).map Prod.fst

theorem SameButStr.replies {d d' : Decoder} (h : SameButStr d d') (cs : List DecoderCall) :
    d.replies cs = d'.replies cs := by
  induction cs generalizing d d' with
  | nil => rfl
  | cons c cs ih =>
    unfold Decoder.replies
    rcases h.call c with ⟨f, h1, h2⟩ | ⟨r, e, e', h1, h2, h3⟩
    · rw [Decoder.calls, Decoder.calls, h1, h2]
    · have := ih h3
      unfold Decoder.replies at this
      rw [calls_cons h1, calls_cons h2]
      cases hx : e.calls cs with
      | error f =>
        rw [hx] at this
        cases hy : e'.calls cs with
        | error f' => rw [hy] at this; exact this
        | ok p => rw [hy] at this; simp [Except.map] at this
      | ok p =>
        rw [hx] at this
        cases hy : e'.calls cs with
        | error f' => rw [hy] at this; simp [Except.map] at this
        | ok q =>
          rw [hy] at this
          simp only [Except.map, Except.ok.injEq] at this ⊢
          rw [this]

theorem start_leftWith {d : Decoder} (hs : d.top.started = false) (dict : Bytes) :
    SameButStr ((leftWith d.settings d.top.table).start dict) (d.start dict) := by
  have e : d.start dict = { top := d.top.start dict, nested := [] } := by simp [Decoder.start, hs]
  have e2 : d.top.start dict =
      { ({ d.top with unparsed := [], decoded := [] } : Level).reset with dict := dict, started := true } := by
    simp [Level.start, hs]
  rw [e, e2]
  obtain ⟨L, ns⟩ := d
  have := SameButStr.str (L := ((leftWith (Decoder.settings ⟨L, ns⟩) L.table).start dict).top) L.tableString
  have e3 : ((leftWith (Decoder.settings ⟨L, ns⟩) L.table).start dict).nested = [] := rfl
  have e4 : ((leftWith (Decoder.settings ⟨L, ns⟩) L.table).start dict) =
      { top := ((leftWith (Decoder.settings ⟨L, ns⟩) L.table).start dict).top, nested := [] } := rfl
  rw [e4]
  have e5 : ((leftWith (Decoder.settings ⟨L, ns⟩) L.table).start dict).top.setStr L.tableString =
      { ({ L with unparsed := [], decoded := [] } : Level).reset with dict := dict, started := true } := by
    simp [leftWith, configured, Decoder.start, Level.start, Level.reset, Decoder.settings, Level.setStr]
  rw [e5] at this
  exact this

theorem replies_leftWith {d : Decoder} (hs : d.top.started = false) (dict : Bytes) (cs : List DecoderCall) :
    d.replies (.start dict :: cs) = (leftWith d.settings d.top.table).replies (.start dict :: cs) := by
  have h := (start_leftWith hs dict).replies cs
  have h1 : d.call (.start dict) = .ok (⟨true, []⟩, d.start dict) := rfl
  have h2 : (leftWith d.settings d.top.table).call (.start dict) =
      .ok (⟨true, []⟩, (leftWith d.settings d.top.table).start dict) := rfl
  unfold Decoder.replies at h ⊢
  rw [calls_cons h1, calls_cons h2]
  generalize (d.start dict).calls cs = x at h
  generalize ((leftWith d.settings d.top.table).start dict).calls cs = y at h
  cases x with
  | error f => cases y with
    | error g => exact h.symm
    | ok q => simp [Except.map] at h
  | ok p => cases y with
    | error g => simp [Except.map] at h
    | ok q =>
      simp only [Except.map, Except.ok.injEq] at h ⊢
      rw [h]

/-! ### Where the code table comes from -/

theorem lastMode_new_mod (near same : Nat) : (AddrCache.new near same).lastMode = (near + same + 1) % 256 := by
  simp only [AddrCache.lastMode, AddrCache.firstSameMode, AddrCache.new]
  omega

theorem Spec.BringsTable.append {b : Bytes} {t : CodeTable} (h : BringsTable b t) (x : Bytes) : BringsTable (b ++ x) t := by
  obtain ⟨v, hi, nb, sb, td, tb, u, near, same, hl, e, h⟩ := h
  exact ⟨v, hi, nb, sb, td, tb, u ++ x, near, same, hl, by rw [e]; simp, h⟩

/-- How far a decoder has got with the header of a file, of which `b` has been fed, if the code table was `left` at
first. -/
inductive TableTrack (left : CodeTable) : Level → List Level → Bytes → Prop
  | header {L : Level} (table : L.table = left) (cache : L.cache = none) : TableTrack left L [] L.unparsed
  | table {b x nb sb : Bytes} {L n : Level} {ns : List Level} {hi : UInt8} {near same : Nat}
      (table : L.table = left) (hv : L.version = 0 ∨ L.version = 0x53) (hhi : hi &&& 3 = 2)
      (hnb : NumCode nb near) (hn : near ≤ 255) (hsb : NumCode sb same) (hs : same ≤ 255)
      (cache : L.cache = some (AddrCache.new near same))
      (inner : ChainTrack library tableSettings defaultTable.toBytes defaultTable n ns b x) :
      TableTrack left L (n :: ns) ([0xD6, 0xC3, 0xC4, L.version, hi] ++ nb ++ sb ++ b)
  | done {L : Level} {b : Bytes} (table : L.table = left ∨ BringsTable b L.table) (cache : L.cache ≠ none) :
      TableTrack left L [] b

variable {left : CodeTable}

theorem TableTrack.result {L : Level} {ns : List Level} {b : Bytes} (h : TableTrack left L ns b) :
    L.table = left ∨ BringsTable b L.table := by
  cases h with
  | header table => exact Or.inl table
  | table table => exact Or.inl table
  | done table => exact table

/-- A chunk of windows. -/
theorem table_windows {L : Level} {b r : Bytes} (hL : NodeInv L) (hc : L.cache ≠ none)
    (ht : L.table = left ∨ BringsTable b L.table) :
    (∀ L' ns' o, decodeChunkWindows L r = .ok L' ns' o → TableTrack left L' ns' b) ∧
    (∀ L' o, decodeChunkWindows L r = .error L' o → L'.table = left ∨ BringsTable b L'.table) := by
  obtain ⟨i1, i2, _⟩ := windows_inv hL hc r
  refine ⟨?_, ?_⟩
  · intro L' ns' o hr
    obtain ⟨rfl, _, _, _, _, _, _, _, _, _, ⟨k1, _⟩, _, a13⟩ := i1 _ _ _ hr
    refine .done (by rw [k1]; exact ht) ?_
    cases hx : L.cache with
    | none => exact absurd hx hc
    | some c0 =>
      obtain ⟨c', h, _⟩ := a13 c0 hx
      rw [h]; simp
  · intro L' o hr
    obtain ⟨_, _, _, _, _, _, k1, _⟩ := i2 _ _ hr
    rw [k1]
    exact ht

/-- What follows a chunk for the nested decoder. -/
theorem TableTrack.after {L n n' : Level} {ns ns' : List Level} {data text b x nb sb : Bytes} {hi : UInt8} {near same : Nat}
    (hL : NodeInv L) (hd : L.decoded = []) (hw : L.win = none) (ht : L.total = 0)
    (hstr : L.tableString = n.decoded) (hn : NestInv n ns) (hr : ChunkOk n ns data n' ns' text)
    (table : L.table = left) (hv : L.version = 0 ∨ L.version = 0x53) (hhi : hi &&& 3 = 2)
    (hnb : NumCode nb near) (hnear : near ≤ 255) (hsb : NumCode sb same) (hsame : same ≤ 255)
    (cache : L.cache = some (AddrCache.new near same))
    (inner : ChainTrack library tableSettings defaultTable.toBytes defaultTable n' ns' b x) :
    (∀ L' ns'' o, afterCodeTableChunk L n' ns' data text = .ok L' ns'' o →
      TableTrack left L' ns'' ([0xD6, 0xC3, 0xC4, L.version, hi] ++ nb ++ sb ++ b)) ∧
    (∀ L' o, afterCodeTableChunk L n' ns' data text = .error L' o →
      L'.table = left ∨ BringsTable ([0xD6, 0xC3, 0xC4, L.version, hi] ++ nb ++ sb ++ b) L'.table) := by
  have hc : L.cache ≠ none := by rw [cache]; simp
  rcases table_step hL hc hd hw ht hstr hn hr with ⟨L1, h1, h2, _⟩ | ⟨hlen, hns, hwn, hcn, _, h1⟩
  · rw [h1]
    refine ⟨?_, by simp⟩
    intro L' ns'' o hx
    simp only [ChunkResult.ok.injEq] at hx
    obtain ⟨rfl, rfl, rfl⟩ := hx
    have hver : L1.version = L.version := by rw [h2]
    rw [← hver] at hv ⊢
    refine .table ?_ hv hhi hnb hnear hsb hsame ?_ inner
    · rw [h2]; exact table
    · rw [h2]; exact cache
  · rw [h1]
    subst hns
    obtain ⟨hdr', ext', c', ws, w, T, T', e1, k1, k2, k3, k4, k5⟩ :=
      inner.tableFile (hr.config.planned.trans hn.planned) hcn hwn hlen
    have hN : NodeInv { L with tableString := [], table := L.tableAfter n'.decoded hlen } :=
      hL.closed_windows hw hc _ []
    refine table_windows hN hc ?_
    change L.tableAfter n'.decoded hlen = left ∨ BringsTable _ (L.tableAfter n'.decoded hlen)
    have hm : (L.cache.map AddrCache.lastMode).getD 0 = (near + same + 1) % 256 := by
      rw [cache]
      exact lastMode_new_mod near same
    unfold Level.tableAfter
    rw [hm]
    split
    · rename_i hval
      refine Or.inr ⟨L.version, hi, nb, sb, hdr' ++ (ws ++ w), n'.decoded, n'.unparsed, near, same, hlen, ?_, hhi, hnb, hsb, ?_, rfl,
        (validate_iff _ _).1 hval⟩
      · rw [e1]; simp
      · rw [k5]
        exact .mk k1 (k2.snoc (by simpa using k4))
    · exact Or.inl table

theorem TableTrack.chunk {L : Level} {ns : List Level} {b : Bytes} (data : Bytes) (hd : ChainInv L ns)
    (h : TableTrack left L ns b) :
    (∀ L' ns' o, chunkRun L ns data = .ok L' ns' o → TableTrack left L' ns' (b ++ data)) ∧
    (∀ L' o, chunkRun L ns data = .error L' o → L'.table = left ∨ BringsTable (b ++ data) L'.table) := by
  have hL := hd.node
  cases h with
  | header table cache =>
    rw [chunkRun_eq, chunkStep, if_neg (by rw [hL.started]; simp)]
    simp only [cache]
    cases hh : readFileHeader (L.unparsed ++ data) with
    | error =>
      simp only [failed]
      refine ⟨by simp, ?_⟩
      intro L' o hr
      simp only [ChunkResult.error.injEq] at hr
      rw [← hr.1]
      exact Or.inl table
    | endOfData =>
      refine ⟨?_, by simp [endChunk_eq]⟩
      intro L' ns' o hr
      simp only [endChunk_eq, ChunkResult.ok.injEq] at hr
      obtain ⟨rfl, rfl, rfl⟩ := hr
      exact .header (L := L.ended (L.unparsed ++ data)) table cache
    | ok hdr rest =>
      obtain ⟨w1, w2, w3, w4, w5, w6, w7, w8, w9⟩ := withHeader_inv hL cache hdr
      have htab' : (L.withHeader hdr).table = left := w7.1.trans table
      cases hcs : hdr.caches with
      | none =>
        have hn : nestedFor hdr [] = [] := by simp [nestedFor, hcs]
        simp only [hn, tableStep]
        exact table_windows w1 w2 (Or.inl htab')
      | some p =>
        obtain ⟨near, same⟩ := p
        obtain ⟨hi, nb, sb, a1, a2, a3, a4, a5, a6, a7⟩ := readFileHeader_custom hh hcs
        have hn : nestedFor hdr [] = [Level.forCodeTable] := by simp [nestedFor, hcs]
        have hcache : (L.withHeader hdr).cache = some (AddrCache.new near same) := by
          simp only [Level.withHeader, hcs]
        have hstr : (L.withHeader hdr).tableString = Level.forCodeTable.decoded := by
          simp only [Level.withHeader, hcs]; rfl
        simp only [hn, tableStep]
        obtain ⟨_, hnI, hcI⟩ := forCodeTable_inv
        have hinner : ChainTrack library tableSettings defaultTable.toBytes defaultTable Level.forCodeTable [] [] [] :=
          ChainTrack.header (L := Level.forCodeTable) Conf.forCodeTable rfl rfl
        obtain ⟨i1, _⟩ := ChainTrack.chunk (tol := library) rfl rfl rfl rest hcI (Or.inr hnI) hinner
        cases hr : chunkRun Level.forCodeTable [] rest with
        | fault f => simp
        | error L2 o2 =>
          simp only [failed]
          refine ⟨by simp, ?_⟩
          intro L' o hx
          simp only [ChunkResult.error.injEq] at hx
          rw [← hx.1]
          exact Or.inl htab'
        | ok n' ns' text =>
          have hok := (chunk_inv hcI rest).1 _ _ _ hr
          have := TableTrack.after w1 w3 w4 w5 hstr hnI hok htab' (by rw [w6]; exact a2) a1 a3 a4 a5 a6
            hcache (i1 _ _ _ hr)
          rw [w6, List.nil_append, ← a7] at this
          exact this
  | @table b x nb sb _ n ns hi near same table hv hhi hnb hn hsb hs cache inner =>
    obtain ⟨_, hwait, hnI, hcI⟩ := hd
    obtain ⟨i1, _⟩ := ChainTrack.chunk (tol := library) rfl rfl rfl data hcI (Or.inr hnI) inner
    rw [chunkRun_eq, chunkStep, if_neg (by rw [hL.started]; simp)]
    simp only [cache, hwait.unparsed, List.nil_append, tableStep]
    cases hr : chunkRun n ns data with
    | fault f => simp
    | error L2 o2 =>
      simp only [failed]
      refine ⟨by simp, ?_⟩
      intro L' o hx
      simp only [ChunkResult.error.injEq] at hx
      rw [← hx.1]
      exact Or.inl table
    | ok n' ns' text =>
      have hok := (chunk_inv hcI data).1 _ _ _ hr
      have := TableTrack.after hL hwait.decoded hwait.win hwait.total hwait.str hnI hok table hv hhi
        hnb hn hsb hs cache (i1 _ _ _ hr)
      simpa using this
  | done table cache =>
    rw [chunkRun_windows hL cache]
    exact table_windows hL cache (table.imp_right (·.append data))

/-- The code table of a decoder that has been fed `b` since it had the code table `left`. -/
structure LeftInv (left : CodeTable) (d : Decoder) (b : Bytes) : Prop where
  track : d.top.started = true → TableTrack left d.top d.nested b
  table : d.top.table = left ∨ BringsTable b d.top.table

theorem TableTrack.congr {L L' : Level} {ns : List Level} {b : Bytes} (h : TableTrack left L ns b)
    (e1 : L'.table = L.table) (e2 : L'.cache = L.cache) (e3 : L'.version = L.version) (e4 : L'.unparsed = L.unparsed) :
    TableTrack left L' ns b := by
  cases h with
  | header table cache =>
    rw [← e4]
    exact .header (e1.trans table) (e2.trans cache)
  | table table hv hhi hnb hn hsb hs cache inner =>
    rw [← e3] at hv ⊢
    exact .table (e1.trans table) hv hhi hnb hn hsb hs (e2.trans cache) inner
  | done table cache => exact .done (e1 ▸ table) (e2 ▸ cache)

theorem LeftInv.call {d d' : Decoder} {b : Bytes} (h : LeftInv left d b) (hd : DecInv d) {c : DecoderCall} {r : DecoderReply}
    (hc : DecoderCall.inner c = true) (hr : d.call c = .ok (r, d')) : LeftInv left d' (b ++ streamOf [c]) := by
  cases c with
  | start dict => simp [DecoderCall.inner] at hc
  | finish => simp [DecoderCall.inner] at hc
  | setMaxFile n =>
    simp only [Decoder.call, Except.ok.injEq, Prod.mk.injEq] at hr
    rw [← hr.2]
    simp only [streamOf, List.append_nil]
    exact ⟨fun hs => (h.track hs).congr rfl rfl rfl rfl, h.table⟩
  | setMaxWin n =>
    simp only [Decoder.call, Except.ok.injEq, Prod.mk.injEq] at hr
    rw [← hr.2]
    simp only [streamOf, List.append_nil]
    unfold Decoder.setMaxWin
    split
    · exact h
    · exact ⟨fun hs => (h.track hs).congr rfl rfl rfl rfl, h.table⟩
  | setAllowTarget v =>
    simp only [Decoder.call, Except.ok.injEq, Prod.mk.injEq] at hr
    rw [← hr.2]
    simp only [streamOf, List.append_nil]
    unfold Decoder.setAllowTarget
    split
    · exact h
    · exact ⟨fun hs => (h.track hs).congr rfl rfl rfl rfl, h.table⟩
  | chunk data =>
    simp only [streamOf, List.append_nil]
    by_cases hs : d.top.started = true
    · obtain ⟨h1, _⟩ := hd hs
      obtain ⟨c1, c2⟩ := (h.track hs).chunk data h1
      simp only [Decoder.call, decodeChunk_eq] at hr
      cases hx : chunkRun d.top d.nested data with
      | fault f => simp [hx] at hr
      | error L o =>
        simp only [hx, Except.ok.injEq, Prod.mk.injEq] at hr
        have hst := ((chunk_inv h1 data).2.1 _ _ hx).stopped
        rw [← hr.2]
        refine ⟨fun hs => ?_, c2 _ _ hx⟩
        simp only [hst] at hs
        exact absurd hs (by simp)
      | ok L ns o =>
        simp only [hx, Except.ok.injEq, Prod.mk.injEq] at hr
        rw [← hr.2]
        exact ⟨fun _ => c1 _ _ _ hx, (c1 _ _ _ hx).result⟩
    · have hs' : d.top.started = false := by simpa using hs
      rw [chunk_stopped hs'] at hr
      simp only [Except.ok.injEq, Prod.mk.injEq] at hr
      rw [← hr.2]
      exact ⟨fun hx => by simp [Level.reset] at hx, h.table.imp_right (·.append data)⟩

theorem streamOf_cons (c : DecoderCall) (cs : List DecoderCall) : streamOf (c :: cs) = streamOf [c] ++ streamOf cs := by
  cases c <;> simp [streamOf]

theorem LeftInv.body {d d' : Decoder} {b : Bytes} (h : LeftInv left d b) (hd : DecInv d) {cs : List DecoderCall}
    {rs : List DecoderReply} (hc : ∀ c ∈ cs, DecoderCall.inner c = true) (hr : d.calls cs = .ok (rs, d')) :
    LeftInv left d' (b ++ streamOf cs) := by
  induction cs generalizing d b rs with
  | nil =>
    simp only [Decoder.calls, Except.ok.injEq, Prod.mk.injEq] at hr
    rw [← hr.2]
    simpa [streamOf] using h
  | cons c cs ih =>
    obtain ⟨r, d1, rs', h1, h2, _⟩ := calls_cons_ok hr
    rw [streamOf_cons, ← List.append_assoc]
    exact ih (h.call hd (hc c (by simp)) h1) (hd.call h1) (fun c hx => hc c (by simp [hx])) h2

/-- A decoder between two sessions. -/
structure Idle (d : Decoder) (t : CodeTable) : Prop where
  stopped : d.top.started = false
  table : d.top.table = t

theorem Idle.session {d d' : Decoder} {t : CodeTable} (h : Idle d t) (hd : DecInv d) (s : Session) {rs : List DecoderReply}
    (hr : d.calls s.calls = .ok (rs, d')) : ∃ t', Idle d' t' ∧ (t' = t ∨ BringsTable s.stream t') := by
  unfold Session.calls at hr
  obtain ⟨rs1, d1, rs2, h1, h2, _⟩ := calls_append hr
  have hp : PlainIdle d t d.top.tableString := ⟨h.stopped, h.table, rfl⟩
  obtain ⟨rs0, d0, h0, hi0⟩ := hp.inner s.pre_inner
  rw [h0] at h1
  simp only [Except.ok.injEq, Prod.mk.injEq] at h1
  obtain ⟨rfl, rfl⟩ := h1
  have hd0 := hd.calls h0
  have hd1 := (hd0.start s.dict).1
  obtain ⟨r, d2, rs3, h3, h4, _⟩ := calls_cons_ok h2
  simp only [Decoder.call, Except.ok.injEq, Prod.mk.injEq] at h3
  rw [← h3.2] at h4
  obtain ⟨rs4, d3, rs5, h5, h6, _⟩ := calls_append h4
  have hl : LeftInv t (d0.start s.dict) [] := by
    have e := start_fresh hi0.stopped s.dict
    have ht : (d0.start s.dict).top.table = t := by rw [e]; exact hi0.table
    refine ⟨fun _ => ?_, Or.inl ht⟩
    have hn : (d0.start s.dict).nested = [] := by rw [e]
    have hu : (d0.start s.dict).top.unparsed = [] := by rw [e]; rfl
    have := TableTrack.header (left := t) (L := (d0.start s.dict).top) ht (by rw [e]; rfl)
    rw [hu] at this
    rw [hn]
    exact this
  have hb := hl.body hd1 s.body_inner h5
  simp only [Decoder.calls, Decoder.call, Except.ok.injEq, Prod.mk.injEq] at h6
  rw [← h6.2]
  exact ⟨d3.top.table, ⟨rfl, rfl⟩, hb.table⟩

theorem Idle.sessions {d d' : Decoder} {t : CodeTable} (h : Idle d t) (hd : DecInv d) (ss : List Session) {rs : List DecoderReply}
    (hr : d.calls (ss.flatMap Session.calls) = .ok (rs, d')) :
    ∃ t', Idle d' t' ∧ (t' = t ∨ ∃ s ∈ ss, BringsTable s.stream t') := by
  induction ss generalizing d t rs with
  | nil =>
    simp only [List.flatMap_nil, Decoder.calls, Except.ok.injEq, Prod.mk.injEq] at hr
    rw [← hr.2]
    exact ⟨t, h, Or.inl rfl⟩
  | cons s ss ih =>
    rw [List.flatMap_cons] at hr
    obtain ⟨rs1, d1, rs2, h1, h2, _⟩ := calls_append hr
    obtain ⟨t1, i1, k1⟩ := h.session hd s h1
    obtain ⟨t2, i2, k2⟩ := ih i1 (hd.calls h1) h2
    refine ⟨t2, i2, ?_⟩
    rcases k2 with rfl | ⟨s', hs', k2⟩
    · rcases k1 with rfl | k1
      · exact Or.inl rfl
      · exact Or.inr ⟨s, by simp, k1⟩
    · exact Or.inr ⟨s', by simp [hs'], k2⟩

theorem CodeTable.toBytes_length (t : CodeTable) : t.toBytes.length = 1536 := by
  obtain ⟨h1, h2, h3, h4, h5, h6⟩ := t.lengths
  simp only [CodeTable.toBytes, List.length_append, h1, h2, h3, h4, h5, h6]

theorem CodeTable.ofBytes_toBytes (t : CodeTable) : CodeTable.ofBytes t.toBytes t.toBytes_length = t := by
  obtain ⟨h1, h2, h3, h4, h5, h6⟩ := t.lengths
  cases t with
  | mk a b c d e f hl =>
    simp only at h1 h2 h3 h4 h5 h6
    have e : ∀ (x y : Bytes), x.length = 256 → (x ++ y).take 256 = x := by
      intro x y h; rw [List.take_append_of_le_length (by omega), List.take_of_length_le (by omega)]
    have d' : ∀ (x y : Bytes) (n : Nat), x.length = 256 → (x ++ y).drop (256 + n) = y.drop n := by
      intro x y n h; rw [List.drop_append, List.drop_of_length_le (by omega), h]; simp
    simp only [CodeTable.ofBytes, CodeTable.toBytes, List.append_assoc, CodeTable.mk.injEq]
    refine ⟨e _ _ h1, ?_, ?_, ?_, ?_, ?_⟩
    · rw [show 256 = 256 + 0 from rfl, d' _ _ _ h1]; exact e _ _ h2
    · rw [show 512 = 256 + (256 + 0) from rfl, d' _ _ _ h1, d' _ _ _ h2]; exact e _ _ h3
    · rw [show 768 = 256 + (256 + (256 + 0)) from rfl, d' _ _ _ h1, d' _ _ _ h2, d' _ _ _ h3]; exact e _ _ h4
    · rw [show 1024 = 256 + (256 + (256 + (256 + 0))) from rfl, d' _ _ _ h1, d' _ _ _ h2, d' _ _ _ h3, d' _ _ _ h4]
      exact e _ _ h5
    · rw [show 1280 = 256 + (256 + (256 + (256 + (256 + 0)))) from rfl, d' _ _ _ h1, d' _ _ _ h2, d' _ _ _ h3, d' _ _ _ h4,
        d' _ _ _ h5, List.drop_zero, List.take_of_length_le (by omega)]

end Vcd
