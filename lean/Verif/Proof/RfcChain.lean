import Verif.Proof.RfcFile
import Verif.Proof.CodeTable

/-!
# File headers, custom code tables and the grammar of delta files: soundness
-/

namespace Vcd
open Spec

variable {c : Coding} {ext : Bool} {tol : Tolerance} {s : Settings} {dict : Bytes} {left : CodeTable}

/-! ### File headers -/

theorem and3 (b : UInt8) : b &&& 3 = 0 ↔ b &&& 1 = 0 ∧ b &&& 2 = 0 := by
  revert b
  apply forall_byte
  decide +kernel

theorem and3_two (b : UInt8) : b &&& 3 = 2 ↔ b &&& 1 = 0 ∧ b &&& 2 ≠ 0 := by
  revert b
  apply forall_byte
  decide +kernel

theorem readFileHeader_plain {b r : Bytes} {hdr : FileHeader} (h : readFileHeader b = .ok hdr r)
    (hc : hdr.caches = none) : ∃ hi, hi &&& 3 = 0 ∧ (hdr.version = 0 ∨ hdr.version = 0x53) ∧
      b = [0xD6, 0xC3, 0xC4, hdr.version, hi] ++ r := by
  have hl := readFileHeader_ok_len h
  match b, hl with
  | h1 :: h2 :: h3 :: h4 :: h5 :: b, _ =>
    rw [readFileHeader_cons5] at h
    split at h
    · rename_i hg
      obtain ⟨rfl, rfl, rfl, hv⟩ := hg
      unfold fileHeaderTail at h
      split at h
      · simp at h
      · rename_i hb1
        split at h
        · obtain ⟨near, r1, _, h⟩ := Parsed.bind_eq_ok.1 h
          obtain ⟨same, r2, _, h⟩ := Parsed.bind_eq_ok.1 h
          split at h
          · simp at h
          · split at h
            · simp at h
            · simp only [Parsed.ok.injEq] at h
              rw [← h.1] at hc
              simp at hc
        · rename_i hb2
          simp only [Parsed.ok.injEq] at h
          obtain ⟨rfl, rfl⟩ := h
          exact ⟨h5, (and3 h5).2 ⟨by simpa using hb1, by simpa using hb2⟩, hv, rfl⟩
    · simp at h

theorem readFileHeader_custom {b r : Bytes} {hdr : FileHeader} {near same : Nat} (h : readFileHeader b = .ok hdr r)
    (hc : hdr.caches = some (near, same)) : ∃ hi nb sb, hi &&& 3 = 2 ∧ (hdr.version = 0 ∨ hdr.version = 0x53) ∧
      NumCode nb near ∧ near ≤ 255 ∧ NumCode sb same ∧ same ≤ 255 ∧
      b = [0xD6, 0xC3, 0xC4, hdr.version, hi] ++ nb ++ sb ++ r := by
  have hl := readFileHeader_ok_len h
  match b, hl with
  | h1 :: h2 :: h3 :: h4 :: h5 :: b, _ =>
    rw [readFileHeader_cons5] at h
    split at h
    · rename_i hg
      obtain ⟨rfl, rfl, rfl, hv⟩ := hg
      unfold fileHeaderTail at h
      split at h
      · simp at h
      · rename_i hb1
        split at h
        · rename_i hb2
          obtain ⟨near', r1, p1, h⟩ := Parsed.bind_eq_ok.1 h
          obtain ⟨same', r2, p2, h⟩ := Parsed.bind_eq_ok.1 h
          obtain ⟨nb, e1, n1⟩ := parseSize_iff.1 p1
          obtain ⟨sb, e2, n2⟩ := parseSize_iff.1 p2
          split at h
          · simp at h
          · split at h
            · simp at h
            · simp only [Parsed.ok.injEq] at h
              obtain ⟨rfl, rfl⟩ := h
              simp only [Option.some.injEq, Prod.mk.injEq] at hc
              obtain ⟨rfl, rfl⟩ := hc
              refine ⟨h5, nb, sb, (and3_two h5).2 ⟨by simpa using hb1, hb2⟩, hv, n1, by omega, n2, by omega, ?_⟩
              rw [e1, e2]
              simp
        · simp only [Parsed.ok.injEq] at h
          rw [← h.1] at hc
          simp at hc
    · simp at h

theorem readFileHeader_of {v hi : UInt8} (hv : v = 0 ∨ v = 0x53) (hhi : hi &&& 3 = 0) (r : Bytes) :
    readFileHeader ([0xD6, 0xC3, 0xC4, v, hi] ++ r) = .ok { version := v, caches := none } r := by
  obtain ⟨b1, b2⟩ := (and3 hi).1 hhi
  change readFileHeader (0xD6 :: 0xC3 :: 0xC4 :: v :: hi :: r) = _
  rw [readFileHeader_cons5, if_pos ⟨rfl, rfl, rfl, hv⟩]
  unfold fileHeaderTail
  rw [if_neg (by simp [b1]), if_neg (by simp [b2])]

theorem readFileHeader_of_custom {v hi : UInt8} (hv : v = 0 ∨ v = 0x53) (hhi : hi &&& 3 = 2) {nb sb : Bytes} {near same : Nat}
    (hn : NumCode nb near) (hn' : near ≤ 255) (hs : NumCode sb same) (hs' : same ≤ 255) (r : Bytes) :
    readFileHeader ([0xD6, 0xC3, 0xC4, v, hi] ++ nb ++ sb ++ r) = .ok { version := v, caches := some (near, same) } r := by
  obtain ⟨b1, b2⟩ := (and3_two hi).1 hhi
  have e : [0xD6, 0xC3, 0xC4, v, hi] ++ nb ++ sb ++ r = 0xD6 :: 0xC3 :: 0xC4 :: v :: hi :: (nb ++ (sb ++ r)) := by simp
  rw [e, readFileHeader_cons5, if_pos ⟨rfl, rfl, rfl, hv⟩]
  unfold fileHeaderTail
  have p1 : parseInt32 (nb ++ (sb ++ r)) = .ok near (sb ++ r) := parseSize_iff.2 ⟨nb, rfl, hn⟩
  have p2 : parseInt32 (sb ++ r) = .ok same r := parseSize_iff.2 ⟨sb, rfl, hs⟩
  rw [if_neg (by simp [b1]), if_pos b2, p1, Parsed.bind_ok, p2, Parsed.bind_ok, if_neg (by omega), if_neg (by omega)]

/-- Settings and dictionary of a level. -/
structure Conf (s : Settings) (dict : Bytes) (L : Level) : Prop where
  allow : s.allowTarget = L.allowTarget
  window : s.maxWindow = L.maxWin
  file : s.maxFile = L.cap
  dict : L.dict = dict

theorem Conf.between {L : Level} (hc : Conf s dict L) (hL : NodeInv L) (hd : L.decoded = []) (hw : L.win = none)
    (ht : L.total = 0) {near same : Nat} (hcache : L.cache = some (AddrCache.new near same)) (hsum : near + same ≤ 254) :
    Between ⟨L.table, near, same⟩ (L.version == 0x53) s dict L [] := by
  refine ⟨⟨hw, hL.inv, hc.allow, hc.window, hc.file, by rw [ht]; rfl, Nat.zero_le _, fun _ => hd⟩, ?_, hsum, rfl, rfl, hc.dict⟩
  rw [hcache]
  change (AddrCache.new near same).init = _
  rw [AddrCache.init_new, if_neg (by omega)]

theorem Conf.withHeader {L : Level} (hc : Conf s dict L) (hdr : FileHeader) : Conf s dict (L.withHeader hdr) := by
  obtain ⟨v, cs⟩ := hdr
  cases cs with
  | none => exact ⟨hc.allow, hc.window, hc.file, hc.dict⟩
  | some p => exact ⟨hc.allow, hc.window, hc.file, hc.dict⟩

theorem Conf.forCodeTable : Conf tableSettings defaultTable.toBytes Level.forCodeTable := ⟨rfl, rfl, rfl, rfl⟩

theorem lastMode_new {near same : Nat} (h : near + same ≤ 254) : (AddrCache.new near same).lastMode = near + same + 1 := by
  simp only [AddrCache.lastMode, AddrCache.firstSameMode, AddrCache.new]
  omega

theorem Level.tableAfter_installed {L : Level} {b : Bytes} (h : b.length = codeTableSize) {near same : Nat}
    (hc : L.cache = some (AddrCache.new near same)) (hsum : near + same ≤ 254) (ht : L.table = left) :
    Installed near same (CodeTable.ofBytes b h) (L.tableAfter b h) left := by
  have hm : (L.cache.map AddrCache.lastMode).getD 0 = near + same + 1 := by
    rw [hc]
    exact lastMode_new hsum
  unfold Level.tableAfter Installed
  rw [hm]
  split
  · rename_i hv
    exact Or.inl ⟨(validate_iff _ _).1 hv, rfl⟩
  · rename_i hv
    exact Or.inr ⟨fun hx => hv ((validate_iff _ _).2 hx), ht⟩

theorem installed_exists (near same : Nat) (t left : CodeTable) : ∃ t', Installed near same t t' left := by
  by_cases h : ValidTable (near + same + 1) t
  · exact ⟨t, Or.inl ⟨h, rfl⟩⟩
  · exact ⟨left, Or.inr ⟨h, rfl⟩⟩

/-! ### Levels without usable caches -/

theorem winRun_stuck {L : Level} (hL : LevelInv L) (hw : L.win = none) (hc : L.cache.bind AddrCache.init = none) (r : Bytes) :
    winRun L r = .done L r [] ∨ winRun L r = .error [] := by
  rw [winRun_eq hL]
  by_cases hr : r = []
  · rw [if_pos hr]; exact Or.inl rfl
  · rw [if_neg hr, decodeWindow_none hw]
    cases readHeader L r with
    | endOfData => exact Or.inl rfl
    | error => exact Or.inr rfl
    | ok hdr rest =>
      rw [hc]
      exact Or.inr rfl

/-! ### Soundness -/

/-- What has been accepted of a file, and output, by a level `L` with nested decoders `ns`, when `b` has
been fed, if the code table was `left` at first. -/
inductive ChainTrack (tol : Tolerance) : Settings → Bytes → CodeTable → Level → List Level → Bytes → Bytes → Prop
  | header {s : Settings} {dict : Bytes} {left : CodeTable} {L : Level} (conf : Conf s dict L) (table : L.table = left)
      (cache : L.cache = none) : ChainTrack tol s dict left L [] L.unparsed []
  | table {s : Settings} {dict b x nb sb : Bytes} {left : CodeTable} {L n : Level} {ns : List Level} {hi : UInt8} {near same : Nat}
      (conf : Conf s dict L) (table : L.table = left) (hv : L.version = 0 ∨ L.version = 0x53) (hhi : hi &&& 3 = 2)
      (hnb : NumCode nb near) (hn : near ≤ 255) (hsb : NumCode sb same) (hs : same ≤ 255)
      (cache : L.cache = some (AddrCache.new near same))
      (inner : ChainTrack tol tableSettings defaultTable.toBytes defaultTable n ns b x) :
      ChainTrack tol s dict left L (n :: ns) ([0xD6, 0xC3, 0xC4, L.version, hi] ++ nb ++ sb ++ b) []
  | windows {s : Settings} {dict hdr ws u T p : Bytes} {left : CodeTable} {L : Level} {ext : Bool} {c : Coding} (cache : L.cache ≠ none)
      (header : FileHeaderCode tol hdr ext c left) (track : Track c ext tol s dict [] L L.unparsed ws u T p)
      (plan : ∀ q, L.planned = some q → T.length < q ∨ LastWindow c ext tol s dict [] q ws T) :
      ChainTrack tol s dict left L [] (hdr ++ ws ++ u) (T ++ p)
  | stuck {s : Settings} {dict hdr : Bytes} {left : CodeTable} {L : Level} {ext : Bool} {c : Coding} (cache : L.cache ≠ none)
      (init : L.cache.bind AddrCache.init = none) (win : L.win = none) (decoded : L.decoded = [])
      (header : FileHeaderCode tol hdr ext c left) : ChainTrack tol s dict left L [] (hdr ++ L.unparsed) []

/-- What has been output of a file, when `b` has been fed. -/
inductive FileOut (tol : Tolerance) (s : Settings) (dict : Bytes) (left : CodeTable) (b x : Bytes) : Prop
  | header (out : x = [])
  | windows {hdr ws u T p : Bytes} {ext : Bool} {c : Coding} (header : FileHeaderCode tol hdr ext c left)
      (bytes : hdr ++ ws ++ u = b)
      (windows : Windows c ext tol s dict [] ws T) (out : x = T ++ p) (size : p.length ≤ s.maxWindow)

theorem FileOut.append {b x : Bytes} (h : FileOut tol s dict left b x) (y : Bytes) : FileOut tol s dict left (b ++ y) x := by
  cases h with
  | header out => exact .header out
  | @windows hdr ws u T p ext c header bytes windows out size =>
    exact .windows (u := u ++ y) header (by rw [← bytes]; simp) windows out size

theorem ChainTrack.output {L : Level} {ns : List Level} {b x : Bytes} (h : ChainTrack tol s dict left L ns b x) :
    FileOut tol s dict left b x := by
  cases h with
  | header => exact .header rfl
  | table => exact .header rfl
  | stuck => exact .header rfl
  | windows cache header track plan =>
    exact .windows header rfl track.windows rfl (by have := track.size; omega)

/-- The delta file of a code table, followed by `r`. -/
def TableFile (tol : Tolerance) (b r x : Bytes) : Prop :=
  ∃ hdr ext c ws w T T', b = hdr ++ (ws ++ w) ++ r ∧ FileHeaderCode tol hdr ext c ∧
    Windows c ext tol tableSettings defaultTable.toBytes [] ws T ∧ T.length < 1536 ∧
    WindowCode c ext tol tableSettings defaultTable.toBytes T w T' ∧ x = T ++ T'

theorem ChainTrack.tableFile {n : Level} {b x : Bytes} (h : ChainTrack tol tableSettings defaultTable.toBytes defaultTable n [] b x)
    (hp : n.planned = some codeTableSize) (hc : n.cache ≠ none) (hw : n.win = none) (hd : n.decoded.length = codeTableSize) :
    TableFile tol b n.unparsed n.decoded := by
  cases h with
  | header _ _ cache => exact absurd cache hc
  | stuck _ _ _ decoded => rw [decoded] at hd; simp [codeTableSize] at hd
  | @windows _ _ hdr ws u T p _ _ ext c cache header track plan =>
    obtain ⟨Lc, b1, b2, _, b4, _⟩ := track.base
    obtain ⟨e1, e2⟩ := b4 hw
    subst e2
    rw [← e1] at b1
    have hdec : n.decoded = T := by
      have := b1.fits.dec (by rw [← b1.fits.allow]; rfl)
      simpa using this
    rcases plan _ hp with hlt | ⟨ws1, w, T1, T2, rfl, rfl, k1, k2, k3⟩
    · rw [← hdec] at hlt; omega
    · exact ⟨hdr, ext, c, ws1, w, T1, T2, by simp, header, k2, by simpa [codeTableSize] using k1, by simpa using k3, hdec⟩

theorem ChunkOk.cache {L L' : Level} {ns ns' : List Level} {data out : Bytes} (h : ChunkOk L ns data L' ns' out)
    (hc : L.cache ≠ none) : L'.cache ≠ none := (h.some hc).1

/-- A chunk of windows after a header. -/
theorem windows_chunk (htol : tol.dangling = true) (hex : tol.excess = true) {L : Level} {hdr r b : Bytes}
    (hB : Between c ext s dict L []) (hL : NodeInv L) (hd : L.decoded = []) (hc : L.cache ≠ none)
    (hH : FileHeaderCode tol hdr ext c left) (hb : b = hdr ++ r) (hpl : ∀ q, L.planned = some q → 0 < q) :
    (∀ L' ns' o, decodeChunkWindows L r = .ok L' ns' o → ChainTrack tol s dict left L' ns' b o) ∧
    (∀ L' o, decodeChunkWindows L r = .error L' o → L.planned = none → FileOut tol s dict left b o) := by
  have hT : Track c ext tol s dict [] L r [] r [] [] := Between.track (by simpa using hB) .nil (Nat.le_of_eq hL.out)
    (fun _ _ => hd) r
  obtain ⟨c1, c2⟩ := hT.chunk htol (Or.inl hex) (data := []) (by simp [Level.text, hd]) (by simpa using hpl)
  rw [List.append_nil] at c1 c2
  refine ⟨?_, ?_⟩
  · intro L' ns' o hr
    obtain ⟨rfl, ws', u', T', p', k1, k2, k3, k4⟩ := c1 _ _ _ hr
    obtain ⟨_, _, a3, _, _, _, _, _, _, _, _, _, a13⟩ := (windows_inv hL hc r).1 _ _ _ hr
    have hc' : L'.cache ≠ none := by
      cases hx : L.cache with
      | none => exact absurd hx hc
      | some c0 =>
        obtain ⟨c', h, _⟩ := a13 c0 hx
        rw [h]; simp
    have := ChainTrack.windows hc' hH k2 (fun q hq => by
      have := k4 q (a3.planned ▸ hq)
      simpa using this)
    have e1 : hdr ++ ws' ++ u' = b := by rw [hb, List.append_assoc, k1]; simp
    have e2 : T' ++ p' = o := by simpa using k3.symm
    rw [e1, e2] at this
    exact this
  · intro L' o hr hp
    obtain ⟨ws', u', T', p', k1, k2, k3, k4⟩ := c2 _ _ hr hp
    refine .windows (u := u') hH ?_ k2 (by simpa using k4) k3
    rw [hb, List.append_assoc, k1]; simp

/-- A chunk after a header with caches that cannot be used. -/
theorem stuck_chunk {L : Level} {hdr r b : Bytes} (hL : NodeInv L) (hd : L.decoded = []) (hc : L.cache ≠ none)
    (hi : L.cache.bind AddrCache.init = none) (hw : L.win = none) (hH : FileHeaderCode tol hdr ext c left) (hb : b = hdr ++ r) :
    (∀ L' ns' o, decodeChunkWindows L r = .ok L' ns' o → ChainTrack tol s dict left L' ns' b o) ∧
    (∀ L' o, decodeChunkWindows L r = .error L' o → L.planned = none → FileOut tol s dict left b o) := by
  rw [decodeChunkWindows_eq]
  rcases winRun_stuck hL.inv hw hi r with h | h
  · rw [h]
    refine ⟨?_, by simp⟩
    intro L' ns' o hr
    simp only [ChunkResult.ok.injEq] at hr
    obtain ⟨rfl, rfl, rfl⟩ := hr
    have : L.text = [] := by simp [Level.text, hd]
    rw [this, hb]
    exact .stuck (L := L.ended r) hc hi hw hd hH
  · rw [h]
    refine ⟨by simp, ?_⟩
    intro L' o hr _
    simp only [ChunkResult.error.injEq] at hr
    rw [← hr.2]
    exact .header rfl

/-- What follows a chunk for the nested decoder. -/
theorem ChainTrack.after (htol : tol.dangling = true) (hex : tol.excess = true) (htab : tol.tables = .library)
    {L n n' : Level} {ns ns' : List Level} {data text b x nb sb : Bytes} {hi : UInt8} {near same : Nat}
    (hL : NodeInv L) (hd : L.decoded = []) (hw : L.win = none) (ht : L.total = 0)
    (hstr : L.tableString = n.decoded) (hn : NestInv n ns) (hr : ChunkOk n ns data n' ns' text)
    (conf : Conf s dict L) (table : L.table = left) (hv : L.version = 0 ∨ L.version = 0x53) (hhi : hi &&& 3 = 2)
    (hnb : NumCode nb near) (hnear : near ≤ 255) (hsb : NumCode sb same) (hsame : same ≤ 255)
    (cache : L.cache = some (AddrCache.new near same)) (hpl : ∀ q, L.planned = some q → 0 < q)
    (inner : ChainTrack tol tableSettings defaultTable.toBytes defaultTable n' ns' b x) :
    (∀ L' ns'' o, afterCodeTableChunk L n' ns' data text = .ok L' ns'' o →
      ChainTrack tol s dict left L' ns'' ([0xD6, 0xC3, 0xC4, L.version, hi] ++ nb ++ sb ++ b) o) ∧
    (∀ L' o, afterCodeTableChunk L n' ns' data text = .error L' o → L.planned = none →
      FileOut tol s dict left ([0xD6, 0xC3, 0xC4, L.version, hi] ++ nb ++ sb ++ b) o) := by
  have hc : L.cache ≠ none := by rw [cache]; simp
  rcases table_step hL hc hd hw ht hstr hn hr with ⟨L1, h1, h2, _⟩ | ⟨hlen, hns, hwn, hcn, _, h1⟩
  · rw [h1]
    refine ⟨?_, by simp⟩
    intro L' ns'' o hx
    simp only [ChunkResult.ok.injEq] at hx
    obtain ⟨rfl, rfl, rfl⟩ := hx
    have hver : L1.version = L.version := by rw [h2]
    rw [← hver] at hv ⊢
    refine .table ?_ ?_ hv hhi hnb hnear hsb hsame ?_ inner
    · rw [h2]; exact ⟨conf.allow, conf.window, conf.file, conf.dict⟩
    · rw [h2]; exact table
    · rw [h2]; exact cache
  · rw [h1]
    subst hns
    obtain ⟨hdr', ext', c', ws, w, T, T', e1, k1, k2, k3, k4, k5⟩ :=
      inner.tableFile (hr.config.planned.trans hn.planned) hcn hwn hlen
    have hN : NodeInv { L with tableString := [], table := L.tableAfter n'.decoded hlen } :=
      hL.closed_windows hw hc _ []
    have hconf : Conf s dict { L with tableString := [], table := L.tableAfter n'.decoded hlen } :=
      ⟨conf.allow, conf.window, conf.file, conf.dict⟩
    have hT : (T ++ T').length = 1536 := by rw [← k5]; exact hlen
    by_cases hsum : near + same ≤ 254
    · have hB := hconf.between hN hd hw ht cache hsum
      have hinst : Installed near same (CodeTable.ofBytes (T ++ T') hT) (L.tableAfter n'.decoded hlen) left := by
        have := Level.tableAfter_installed hlen cache hsum table
        have e : CodeTable.ofBytes n'.decoded hlen = CodeTable.ofBytes (T ++ T') hT := by
          congr
        rw [e] at this
        exact this
      have hH := FileHeaderCode.library htab hv hhi hnb hnear hsb hsame k1 k2 k3 k4 hT hinst
      exact windows_chunk htol hex hB hN hd hc hH (by rw [e1]; simp) hpl
    · obtain ⟨t, hinst⟩ := installed_exists near same (CodeTable.ofBytes (T ++ T') hT) left
      have hH := FileHeaderCode.library htab hv hhi hnb hnear hsb hsame k1 k2 k3 k4 hT hinst
      refine stuck_chunk hN hd hc ?_ hw hH (by rw [e1]; simp)
      change L.cache.bind AddrCache.init = none
      rw [cache]
      change (AddrCache.new near same).init = none
      rw [AddrCache.init_new, if_pos (by omega)]

theorem NestInv.grown {L : Level} {ns : List Level} (h : L.planned = none ∨ NestInv L ns) :
    ∀ q, L.planned = some q → 0 < q := by
  intro q hq
  rcases h with h | h
  · rw [h] at hq; simp at hq
  · rw [h.planned] at hq
    simp only [Option.some.injEq] at hq
    subst hq
    decide

theorem ChainTrack.chunk (htol : tol.dangling = true) (hex : tol.excess = true) (htab : tol.tables = .library)
    {L : Level} {ns : List Level} {b x : Bytes} (data : Bytes) (hd : ChainInv L ns) (hnest : L.planned = none ∨ NestInv L ns)
    (h : ChainTrack tol s dict left L ns b x) :
    (∀ L' ns' o, chunkRun L ns data = .ok L' ns' o → ChainTrack tol s dict left L' ns' (b ++ data) (x ++ o)) ∧
    (∀ L' o, chunkRun L ns data = .error L' o → L.planned = none → FileOut tol s dict left (b ++ data) (x ++ o)) := by
  induction hk : chunkDepth L ns data using Nat.strongRecOn generalizing s dict left L ns b x data with
  | _ k ih =>
    subst hk
    have hL := hd.node
    have htx : L.text = [] := by simp [Level.text, hL.out]
    have hpos := NestInv.grown hnest
    cases h with
    | header conf table cache =>
      obtain ⟨f1, f2, f3⟩ := hL.fresh cache
      rw [chunkRun_eq, chunkStep, if_neg (by rw [hL.started]; simp)]
      simp only [cache]
      cases hh : readFileHeader (L.unparsed ++ data) with
      | error =>
        simp only [failed]
        refine ⟨by simp, ?_⟩
        intro L' o hr _
        simp only [ChunkResult.error.injEq] at hr
        rw [← hr.2]
        exact .header rfl
      | endOfData =>
        refine ⟨?_, by simp [endChunk_eq]⟩
        intro L' ns' o hr
        simp only [endChunk_eq, ChunkResult.ok.injEq] at hr
        obtain ⟨rfl, rfl, rfl⟩ := hr
        rw [htx]
        exact .header (L := L.ended (L.unparsed ++ data)) ⟨conf.allow, conf.window, conf.file, conf.dict⟩ table cache
      | ok hdr rest =>
        obtain ⟨w1, w2, w3, w4, w5, w6, w7, w8, w9⟩ := withHeader_inv hL cache hdr
        have hconf := conf.withHeader hdr
        have htab' : (L.withHeader hdr).table = left := w7.1.trans table
        have hpl' : ∀ q, (L.withHeader hdr).planned = some q → 0 < q := by rw [w9.planned]; exact hpos
        cases hcs : hdr.caches with
        | none =>
          obtain ⟨hi, a1, a2, a3⟩ := readFileHeader_plain hh hcs
          have hn : nestedFor hdr [] = [] := by simp [nestedFor, hcs]
          have hcache : (L.withHeader hdr).cache = some (AddrCache.new 4 3) := by
            simp only [Level.withHeader, hcs]; rfl
          simp only [hn, tableStep]
          have hB := hconf.between w1 w3 w4 w5 hcache (by decide)
          rw [htab', w6] at hB
          have hH : FileHeaderCode tol [0xD6, 0xC3, 0xC4, hdr.version, hi] (hdr.version == 0x53)
              { defaultCoding with table := left } left := .plain a2 a1
          have := windows_chunk htol hex hB w1 w3 w2 hH a3 hpl'
          rw [w9.planned] at this
          simpa using this
        | some p =>
          obtain ⟨near, same⟩ := p
          obtain ⟨hi, nb, sb, a1, a2, a3, a4, a5, a6, a7⟩ := readFileHeader_custom hh hcs
          have hn : nestedFor hdr [] = [Level.forCodeTable] := by simp [nestedFor, hcs]
          have hcache : (L.withHeader hdr).cache = some (AddrCache.new near same) := by
            simp only [Level.withHeader, hcs]
          have hstr : (L.withHeader hdr).tableString = Level.forCodeTable.decoded := by
            simp only [Level.withHeader, hcs]; rfl
          simp only [hn, tableStep]
          obtain ⟨_, hnI, hcI⟩ := forCodeTable_inv
          obtain ⟨pre, p1, p2⟩ := readFileHeader_ok_pre hh
          have hlt : chunkDepth Level.forCodeTable [] rest < chunkDepth L [] data := by
            have hl := congrArg List.length p1
            simp only [List.length_append] at hl
            have : Level.forCodeTable.unparsed = [] := rfl
            simp only [chunkDepth, List.map_cons, List.sum_cons, List.map_nil, List.sum_nil, this,
              List.length_nil]
            omega
          have hinner : ChainTrack tol tableSettings defaultTable.toBytes defaultTable Level.forCodeTable [] [] [] :=
            ChainTrack.header (L := Level.forCodeTable) Conf.forCodeTable rfl rfl
          obtain ⟨i1, _⟩ := ih _ hlt rest hcI (Or.inr hnI) hinner rfl
          cases hr : chunkRun Level.forCodeTable [] rest with
          | fault f => simp
          | error L2 o2 =>
            simp only [failed]
            refine ⟨by simp, ?_⟩
            intro L' o hx _
            simp only [ChunkResult.error.injEq] at hx
            rw [← hx.2]
            exact .header rfl
          | ok n' ns' text =>
            have hok := (chunk_inv hcI rest).1 _ _ _ hr
            have := ChainTrack.after htol hex htab w1 w3 w4 w5 hstr hnI hok hconf htab' (by rw [w6]; exact a2) a1 a3 a4 a5 a6
              hcache hpl' (i1 _ _ _ hr)
            rw [w9.planned, w6, List.nil_append, ← a7] at this
            simpa using this
    | @table _ _ b x nb sb _ _ n ns hi near same conf table hv hhi hnb hn hsb hs cache inner =>
      obtain ⟨_, hwait, hnI, hcI⟩ := hd
      have hlt : chunkDepth n ns data < chunkDepth L (n :: ns) data := by
        simp only [chunkDepth, List.map_cons, List.sum_cons]
        omega
      obtain ⟨i1, _⟩ := ih _ hlt data hcI (Or.inr hnI) inner rfl
      rw [chunkRun_eq, chunkStep, if_neg (by rw [hL.started]; simp)]
      simp only [cache, hwait.unparsed, List.nil_append, tableStep]
      cases hr : chunkRun n ns data with
      | fault f => simp
      | error L2 o2 =>
        simp only [failed]
        refine ⟨by simp, ?_⟩
        intro L' o hx _
        simp only [ChunkResult.error.injEq] at hx
        rw [← hx.2]
        exact .header rfl
      | ok n' ns' text =>
        have hok := (chunk_inv hcI data).1 _ _ _ hr
        have := ChainTrack.after htol hex htab hL hwait.decoded hwait.win hwait.total hwait.str hnI hok conf table hv hhi
          hnb hn hsb hs cache hpos (i1 _ _ _ hr)
        simpa using this
    | @windows _ _ hdr ws u T p _ _ ext c cache header track plan =>
      have hI := (chunk_inv hd data).1
      rw [chunkRun_windows hL cache] at hI ⊢
      have hpl : ∀ q, L.planned = some q → ([] ++ T).length < q := by
        intro q hq
        rcases hnest with h | h
        · rw [h] at hq; simp at hq
        · rw [h.planned] at hq
          simp only [Option.some.injEq] at hq
          obtain ⟨Lc, b1, b2, _, _⟩ := track.base
          have hdec := b1.fits.dec (by rw [← b1.fits.allow, track.allow]; exact h.target)
          have h1 := h.small
          rw [b2, hdec, List.length_append] at h1
          omega
      obtain ⟨c1, c2⟩ := track.chunk htol (Or.inl hex) (data := data) htx hpl
      refine ⟨?_, ?_⟩
      · intro L' ns' o hr
        obtain ⟨rfl, ws', u', T', p', k1, k2, k3, k4⟩ := c1 _ _ _ hr
        have hok := hI _ _ _ hr
        have := ChainTrack.windows (hok.cache cache) header k2 (fun q hq => by
          have := k4 q (hok.config.planned ▸ hq)
          simpa using this)
        have e1 : hdr ++ ws' ++ u' = hdr ++ ws ++ u ++ data := by rw [List.append_assoc, k1]; simp
        rw [e1, ← k3] at this
        exact this
      · intro L' o hr hp
        obtain ⟨ws', u', T', p', k1, k2, k3, k4⟩ := c2 _ _ hr hp
        refine .windows (u := u') header ?_ k2 k4 k3
        rw [List.append_assoc, k1]; simp
    | @stuck _ _ hdr _ _ ext c cache init win decoded header =>
      rw [chunkRun_windows hL cache]
      have := stuck_chunk (s := s) (dict := dict) hL decoded cache init win header (r := L.unparsed ++ data) rfl
      simpa using this

/-- What has been accepted of a file, and output, when `b` has been fed. -/
def FileTrack (tol : Tolerance) (s : Settings) (dict : Bytes) (left : CodeTable) (d : Decoder) (b x : Bytes) : Prop :=
  ChainTrack tol s dict left d.top d.nested b x

theorem FileTrack.feed (htol : tol.dangling = true) (hex : tol.excess = true) (htab : tol.tables = .library) {d e : Decoder}
    {b x o : Bytes} {cs : List Bytes}
    (hd : Fed d) (h : FileTrack tol s dict left d b x) (hf : d.feed cs = some (o, e)) :
    FileTrack tol s dict left e (b ++ cs.flatten) (x ++ o) := by
  induction cs generalizing d b x o with
  | nil =>
    simp only [Decoder.feed, Option.some.injEq, Prod.mk.injEq] at hf
    obtain ⟨rfl, rfl⟩ := hf
    simpa using h
  | cons a cs ih =>
    obtain ⟨L1, ns1, o1, o2, h1, h2, rfl⟩ := feed_cons_some hf
    rw [List.flatten_cons, ← List.append_assoc, ← List.append_assoc]
    exact ih (hd.next h1) ((ChainTrack.chunk htol hex htab a hd.chain (Or.inl hd.planned) h).1 _ _ _ h1) h2

/-- Whatever the chunks contain. -/
theorem FileTrack.calls (htol : tol.dangling = true) (hex : tol.excess = true) (htab : tol.tables = .library) {d e : Decoder}
    {b x : Bytes} {cs : List Bytes}
    {rs : List DecoderReply} (hd : Fed d) (h : FileTrack tol s dict left d b x)
    (hf : d.calls (cs.map .chunk) = .ok (rs, e)) : FileOut tol s dict left (b ++ cs.flatten) (x ++ allOut rs) := by
  induction cs generalizing d b x rs with
  | nil =>
    simp only [List.map_nil, Decoder.calls, Except.ok.injEq, Prod.mk.injEq] at hf
    rw [← hf.1]
    simpa [allOut] using ChainTrack.output h
  | cons a cs ih =>
    rw [List.map_cons] at hf
    obtain ⟨r, d1, rs', h1, h2, rfl⟩ := calls_cons_ok hf
    rw [List.flatten_cons, ← List.append_assoc]
    obtain ⟨c1, c2⟩ := ChainTrack.chunk htol hex htab a hd.chain (Or.inl hd.planned) h
    have hall : allOut (r :: rs') = r.out ++ allOut rs' := by simp [allOut]
    rw [hall, ← List.append_assoc]
    simp only [Decoder.call, decodeChunk_eq] at h1
    cases hr : chunkRun d.top d.nested a with
    | fault f => simp [hr] at h1
    | error L o =>
      simp only [hr, Except.ok.injEq, Prod.mk.injEq] at h1
      obtain ⟨rfl, rfl⟩ := h1
      have hst := ((chunk_inv hd.chain a).2.1 _ _ hr).stopped
      obtain ⟨rs2, d2, g1, _, g3, _⟩ := stopped_calls (d := { top := L, nested := [] }) hst (cs := cs.map .chunk)
        (by intro x hx dict hxx; rw [hxx] at hx; simp at hx)
      rw [g1] at h2
      simp only [Except.ok.injEq, Prod.mk.injEq] at h2
      rw [← h2.1, g3, List.append_nil]
      exact (c2 _ _ hr hd.planned).append _
    | ok L ns o =>
      simp only [hr, Except.ok.injEq, Prod.mk.injEq] at h1
      obtain ⟨rfl, rfl⟩ := h1
      exact ih (d := { top := L, nested := ns }) (hd.next hr) (c1 _ _ _ hr) h2

/-- The members after `StartDecoding`. -/
theorem start_fresh {d : Decoder} (hs : d.top.started = false) (dict : Bytes) :
    d.start dict = { top := { ({ d.top with unparsed := [], decoded := [] } : Level).reset with dict := dict, started := true },
                     nested := [] } := by
  simp [Decoder.start, hs, Level.start]

theorem conf_start {d : Decoder} (hs : d.top.started = false)
    (allow : s.allowTarget = d.top.allowTarget) (window : s.maxWindow = d.top.maxWin)
    (file : s.maxFile = d.top.maxFile) (dict : Bytes) : Conf s dict (d.start dict).top := by
  have hp := (Fed.start d hs dict).planned
  refine ⟨?_, ?_, ?_, ?_⟩
  · rw [start_fresh hs]; exact allow
  · rw [start_fresh hs]; exact window
  · simp only [Level.cap, hp]
    rw [start_fresh hs]; exact file
  · rw [start_fresh hs]

theorem FileTrack.start (d : Decoder) (hs : d.top.started = false) (ht : d.top.table = left)
    (allow : s.allowTarget = d.top.allowTarget) (window : s.maxWindow = d.top.maxWin)
    (file : s.maxFile = d.top.maxFile) (dict : Bytes) : FileTrack tol s dict left (d.start dict) [] [] := by
  have hc := conf_start hs allow window file dict
  unfold FileTrack
  have e := start_fresh hs dict
  have h := ChainTrack.header (tol := tol) (left := left) hc (by rw [e]; exact ht) (by rw [e]; rfl)
  have hn : (d.start dict).nested = [] := by rw [e]
  have hu : (d.start dict).top.unparsed = [] := by rw [e]; rfl
  rw [hn]
  rw [hu] at h
  exact h

/-- A complete file: nothing at all, or a header and windows; in the second case either more windows can
follow, or none can and there have been none. -/
theorem FileTrack.complete {e : Decoder} {b x : Bytes} (hfe : Fed e) (h : FileTrack tol s dict left e b x) (h2 : e.finish.1 = true) :
    (b = [] ∧ x = []) ∨
    ∃ hdr ext c ws, b = hdr ++ ws ∧ FileHeaderCode tol hdr ext c left ∧ Windows c ext tol s dict [] ws x ∧
      e.nested = [] ∧ e.top.unparsed = [] ∧ e.top.cache ≠ none ∧ e.top.win = none ∧
      ((Between c ext s dict e.top x ∧ (s.allowTarget = false → e.top.decoded = [])) ∨
        (e.top.cache.bind AddrCache.init = none ∧ e.top.decoded = [] ∧ ws = [] ∧ x = [])) := by
  unfold Decoder.finish Level.isComplete at h2
  unfold FileTrack at h
  generalize hns : e.nested = ns at h h2
  cases h with
  | header conf table cache =>
    rw [cache] at h2
    simp only [Bool.and_eq_true] at h2
    refine Or.inl ⟨?_, rfl⟩
    simpa using h2.2
  | table conf table hv hhi hnb hn hsb hs cache inner =>
    rw [cache] at h2
    simp at h2
  | @windows _ _ hdr ws u T p _ _ ext c cache header track plan =>
    cases hcc : e.top.cache with
    | none => exact absurd hcc cache
    | some c0 =>
      rw [hcc] at h2
      simp only [hfe.notDone, Bool.and_eq_true] at h2
      have h2' := h2.2
      cases hw : e.top.win with
      | some w => simp [hw] at h2'
      | none =>
        simp [hw] at h2'
        obtain ⟨Lc, k1, k2, _, k4, k5⟩ := track.base
        obtain ⟨e1, e2⟩ := k4 hw
        rw [h2'] at e2
        subst e2
        rw [← e1] at k1 k2 k5
        have hd0 : p = [] := List.append_cancel_left (as := e.top.decoded) (by rw [List.append_nil]; exact k2.symm)
        subst hd0
        refine Or.inr ⟨hdr, ext, c, ws, by simp, header, by simpa using track.windows, rfl, h2', by simp, rfl, Or.inl ⟨by simpa using k1, ?_⟩⟩
        exact fun ha => k5 ha hfe.planned
  | @stuck _ _ hdr _ _ ext c cache init win decoded header =>
    cases hcc : e.top.cache with
    | none => exact absurd hcc cache
    | some c0 =>
      rw [hcc] at h2
      simp only [hfe.notDone, Bool.and_eq_true, win] at h2
      have h2' : e.top.unparsed = [] := by simpa using h2.2
      rw [h2']
      refine Or.inr ⟨hdr, ext, c, [], by simp, header, .nil, rfl, rfl, by simp, win, Or.inr ⟨?_, decoded, rfl, rfl⟩⟩
      rw [hcc] at init
      exact init

theorem decode_sound {d : Decoder} (hs : d.top.started = false) (ht : d.top.table = left)
    (allow : s.allowTarget = d.top.allowTarget) (window : s.maxWindow = d.top.maxWin)
    (file : s.maxFile = d.top.maxFile) {dict T : Bytes} {cs : List Bytes}
    (h : d.decode dict cs = some T) : FileCode library s dict cs.flatten T left := by
  obtain ⟨e, h1, h2⟩ := decode_some.1 h
  have hf := Fed.start d hs dict
  have ht := (FileTrack.start (tol := library) d hs ht allow window file dict).feed rfl rfl rfl hf h1
  simp only [List.nil_append] at ht
  rcases ht.complete (hf.feed h1) h2 with ⟨e1, e2⟩ | ⟨hdr, ext, c, ws, e1, hH, hw, _⟩
  · rw [e1, e2]; exact .empty rfl
  · rw [e1]; exact .mk hH hw

end Vcd
