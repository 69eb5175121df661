import Verif.Proof.DebugChunk

/-!
# Files without a custom code table do not make a debug build of the decoder exit
-/

namespace Vcd
open Spec

/-- The source segment is part of the dictionary or of the text in memory. -/
theorem readHeader_source {L : Level} {s r : Bytes} {h : WinHeader} (hok : readHeader L s = .ok h r) :
    h.srcLen ≤ L.dict.length ∨ h.srcLen ≤ L.decoded.length := by
  have hs := (readHeader_ok hok).2.1
  rw [readHeader_eq] at hok
  obtain ⟨f, s', h1, h2⟩ := Parsed.bind_eq_ok.1 hok
  split at h2
  · simp at h2
  simp only [Parsed.ok.injEq] at h2
  rw [← h2.1] at hs ⊢
  simp only [mkHeader] at hs ⊢
  split at hs
  · left
    rw [List.length_take, List.length_drop] at hs
    omega
  split at hs
  · right
    rw [List.length_take, List.length_drop] at hs
    omega
  · left
    simp only [List.take_nil, List.length_nil] at hs
    omega

/-- A decoder for files with the default code table, with limits that keep positions below 2^31. -/
structure Plain (L : Level) : Prop where
  typed : Typed L
  table : L.table = defaultTable
  sizes : ∀ c, L.cache = some c → SameSizes AddrCache.newDefault c
  dict : L.dict.length + L.maxWin < 2147483648
  file : L.maxFile + L.maxWin < 2147483648
  room : L.total ≤ L.maxFile
  text : L.decoded.length + L.owed ≤ L.total
  win : ∀ w, L.win = some w → w.hdr.srcLen + w.hdr.targetLen < 2147483648

theorem Plain.header {L : Level} (h : Plain L) {s r : Bytes} {hdr : WinHeader} (hok : readHeader L s = .ok hdr r) :
    hdr.srcLen + hdr.targetLen < 2147483648 := by
  have h1 := (wouldExceed_false (readHeader_ok hok).2.2.2.2.2.1).1
  have := h.dict
  have := h.file
  have := h.room
  have := h.text
  rcases readHeader_source hok with h2 | h2 <;> omega

/-- The header of a window that has been interrupted. -/
theorem decodeWindow_hdr {L : Level} (hL : LevelInv L) (hT : Typed L) {s r : Bytes} {L' : Level}
    (h : decodeWindow L s = .endOfData L' r) {w' : OpenWindow} (hw' : L'.win = some w') :
    (∃ w, L.win = some w ∧ w'.hdr = w.hdr) ∨ ∃ r, readHeader L s = .ok w'.hdr r := by
  cases hw : L.win with
  | none =>
    right
    rw [decodeWindow_none hw] at h
    cases hr : readHeader L s with
    | endOfData =>
      simp only [hr, WinResult.endOfData.injEq] at h
      rw [← h.1, hw] at hw'
      simp at hw'
    | error => simp [hr] at h
    | ok hdr rest =>
      simp only [hr] at h
      cases hi : L.cache.bind AddrCache.init with
      | none => simp [hi] at h
      | some c =>
        simp only [hi] at h
        obtain ⟨e, b', rfl, _⟩ := (windowBody_kept (L := L.opened hdr) (w := newWindow hdr) hT.types (.none _)).2 _ _ h
        simp only [Level.suspended, Option.some.injEq] at hw'
        rw [← hw']
        exact ⟨rest, rfl⟩
  | some w =>
    left
    obtain ⟨_, _, c, n, m, hc', ho⟩ := hL.opened w hw
    rw [decodeWindow_some hw ho.inter hc'] at h
    obtain ⟨e, b', rfl, _⟩ := (windowBody_kept hT.types (hT.pend w hw)).2 _ _ h
    simp only [Level.suspended, Option.some.injEq] at hw'
    rw [← hw']
    exact ⟨w, rfl, rfl⟩

theorem sizes_after {L L' : Level} (hs : ∀ c, L.cache = some c → SameSizes AddrCache.newDefault c)
    (h : ∀ c, L.cache = some c → ∃ c', L'.cache = some c' ∧ SameSizes c c') (hn : L.cache ≠ none) :
    ∀ c, L'.cache = some c → SameSizes AddrCache.newDefault c := by
  intro c hc
  cases hx : L.cache with
  | none => exact absurd hx hn
  | some c0 =>
    obtain ⟨c', h1, h2⟩ := h c0 hx
    rw [hc] at h1
    simp only [Option.some.injEq] at h1
    rw [h1]
    exact (hs c0 hx).trans h2

theorem cache_some {L : Level} (hL : LevelInv L) {s r : Bytes} {L' : Level} (h : decodeWindow L s = .ok L' r) : L.cache ≠ none := by
  cases hw : L.win with
  | some w => obtain ⟨_, _, c, n, m, hc', ho⟩ := hL.opened w hw; rw [hc']; simp
  | none =>
    intro hc
    rw [decodeWindow_none hw] at h
    cases hr : readHeader L s with
    | endOfData => simp [hr] at h
    | error => simp [hr] at h
    | ok hdr rest => simp [hr, hc] at h

theorem Plain.done {L : Level} (hL : LevelInv L) (hi : Plain L) {s r : Bytes} {L' : Level} (h : decodeWindow L s = .ok L' r) :
    Plain L' := by
  obtain ⟨t1, t2⟩ := (decodeWindow_typed hL hi.typed).1 _ _ h
  obtain ⟨i1, i2, _, d, i4, i5, i6⟩ := decodeWindow_ok hL h
  have hs := static_fields i1.stat
  refine ⟨t1, hs.table.trans hi.table, sizes_after hi.sizes t2 (cache_some hL h), ?_, ?_, i1.file hi.room, ?_, ?_⟩
  · rw [hs.dict, hs.maxWin]; exact hi.dict
  · rw [hs.maxFile, hs.maxWin]; exact hi.file
  · have : L'.owed = 0 := by simp [Level.owed, i2]
    have := hi.text
    rw [i4, List.length_append]
    omega
  · intro w hw
    rw [i2] at hw
    simp at hw

theorem Plain.next {L : Level} (hi : Plain L) (hw : L.win = none) : Plain L.next.1 := by
  obtain ⟨n1, n2, n3, _⟩ := next_fields L
  have hs := static_fields (next_static L)
  refine ⟨next_typed hi.typed, hs.table.trans hi.table, by rw [n2]; exact hi.sizes, ?_, ?_, ?_, ?_, by rw [n3]; exact hi.win⟩
  · rw [hs.dict, hs.maxWin]; exact hi.dict
  · rw [hs.maxFile, hs.maxWin]; exact hi.file
  · rw [n1, hs.maxFile]; exact hi.room
  · rw [n1, next_owed hw]
    have := hi.text
    have : L.next.1.decoded.length ≤ L.decoded.length := by
      unfold Level.next
      split <;> simp [Level.flush]
    omega

theorem Plain.eod {L : Level} (hL : LevelInv L) (hi : Plain L) {s r : Bytes} {L' : Level} (h : decodeWindow L s = .endOfData L' r) :
    Plain L' := by
  obtain ⟨t1, t2⟩ := (decodeWindow_typed hL hi.typed).2 _ _ h
  rcases (decodeWindow_inv hL s).2.1 _ _ h with ⟨_, rfl, _⟩ | ⟨k1, _, ⟨c, d, w, sp, tot, k2, k3, k4, k5, _⟩, k6, k7⟩
  · exact hi
  · have hs := static_fields (L := L) (L' := L') (by rw [k3]; rfl)
    have hc : L.cache ≠ none := by
      cases hw : L.win with
      | some w => obtain ⟨_, _, c, n, m, hc', ho⟩ := hL.opened w hw; rw [hc']; simp
      | none =>
        intro hc
        rw [decodeWindow_none hw] at h
        obtain ⟨hdr, rest, hr, _⟩ := k6 hw
        simp [hr, hc] at h
    have htot : L'.total ≤ L'.maxFile := by
      rw [hs.maxFile]
      have := hi.room
      cases hw : L.win with
      | some w => rw [(k7 w hw).1]; exact hi.room
      | none =>
        obtain ⟨hdr, rest, hr, ht, _⟩ := k6 hw
        rw [ht]
        exact (wouldExceed_false (readHeader_ok hr).2.2.2.2.2.1).2.2 hi.room
    have htt : L'.total = tot := by rw [k3]; rfl
    refine ⟨t1, hs.table.trans hi.table, sizes_after hi.sizes t2 hc, ?_, ?_, htot, ?_, ?_⟩
    · rw [hs.dict, hs.maxWin]; exact hi.dict
    · rw [hs.maxFile, hs.maxWin]; exact hi.file
    · have := hi.text
      omega
    · intro w' hw'
      rcases decodeWindow_hdr hL hi.typed h hw' with ⟨w, h1, h2⟩ | ⟨r, h1⟩
      · rw [h2]; exact hi.win w h1
      · exact hi.header h1

theorem plain_stable : WinStable Plain where
  ok hL hi h := (hi.done hL h).next (decodeWindow_ok hL h).2.1
  eod hL hi h := hi.eod hL h
  done hL hi h := hi.done hL h
  ended _ hi := ⟨hi.typed.congr rfl rfl, hi.table, hi.sizes, hi.dict, hi.file, hi.room, hi.text, hi.win⟩

/-- The default code table only has the modes of the default address cache. -/
theorem default_modes : ¬ HasBadMode defaultTable AddrCache.newDefault := by
  rintro ⟨op, h⟩
  rw [default_first, default_second] at h
  revert h
  revert op
  suffices h : ∀ op : UInt8, (unpack packedMode1 op.toNat).toNat ≤ 8 ∧ (unpack packedMode2 op.toNat).toNat ≤ 8 by
    intro op hb
    have key : ∀ m : UInt8, m.toNat ≤ 8 → ¬ BadMode AddrCache.newDefault m := by
      intro m
      revert m
      apply forall_byte
      unfold BadMode
      decide +kernel
    rcases hb with ⟨_, hb⟩ | ⟨_, hb⟩
    · exact key _ (h op).1 hb
    · exact key _ (h op).2 hb
  apply forall_byte
  decide +kernel

theorem Plain.window {L : Level} (hL : LevelInv L) (hi : Plain L) (hc : L.cache ≠ none) (s : Bytes) : decodeWindowSite L s = none := by
  cases h : decodeWindowSite L s with
  | none => rfl
  | some x =>
    exfalso
    obtain ⟨_, c, h1, ⟨_, h2⟩ | ⟨hdr, h2, h3⟩⟩ := decodeWindow_site hL hi.typed hc h
    · obtain ⟨e1, e2⟩ := hi.sizes c h1
      rw [e1, e2] at h2
      exact absurd h2 (by decide)
    · rcases h2 with ⟨_, h2⟩ | ⟨_, h2⟩
      · have : hdr.srcLen + hdr.targetLen < 2147483648 := by
          rcases h3 with ⟨_, r, h3⟩ | ⟨w, h3, rfl⟩
          · exact hi.header h3
          · exact hi.win w h3
        omega
      · rw [hi.table] at h2
        exact default_modes ((hi.sizes c h1).hasBadMode h2)

theorem Plain.windows {L : Level} (hL : LevelInv L) (hi : Plain L) (hc : L.cache ≠ none) (hp : L.InPlan) (s : Bytes) :
    windowLoopSite (s.length + 2) L s = none := by
  cases h : windowLoopSite (s.length + 2) L s with
  | none => rfl
  | some x =>
    exfalso
    obtain ⟨_, L', s', j1, j2, j3, j4⟩ := windows_site plain_stable hL hi hc hp h
      (fun L s x h1 h2 h3 h4 => by rw [h2.window h1 h3 s] at h4; simp at h4)
    rw [j2.window j1 j3 s'] at j4
    simp at j4

theorem cached_stable : WinStable (fun L => L.cache ≠ none) where
  ok {L s L' r} hL hi h := by
    rw [(next_fields L').2.1]
    cases hx : L.cache with
    | none => exact absurd hx hi
    | some c =>
      obtain ⟨c', h1, _⟩ := (decodeWindow_ok hL h).1.near c hx
      rw [h1]; simp
  eod {L s L' r} hL hi h := by
    rcases (decodeWindow_inv hL s).2.1 _ _ h with ⟨_, rfl, _⟩ | ⟨_, _, ⟨c, d, w, sp, tot, k2, k3, _⟩, _⟩
    · exact hi
    · rw [k3]; simp [Level.after]
  done {L s L' r} hL hi h := by
    cases hx : L.cache with
    | none => exact absurd hx hi
    | some c =>
      obtain ⟨c', h1, _⟩ := (decodeWindow_ok hL h).1.near c hx
      rw [h1]; simp
  ended _ hi := hi

/-- The state between chunks, after the bytes `s`. -/
structure PlainDec (d : Decoder) (s : Bytes) : Prop where
  typed : DecTyped d
  started : d.top.started = true
  nested : d.nested = []
  plain : Plain d.top
  fresh : d.top.cache = none → d.top.unparsed = s

theorem Plain.withHeader {L : Level} (h : Plain L) (hw : L.win = none) {hdr : FileHeader} (hc : hdr.caches = none) :
    Plain (L.withHeader hdr) := by
  have ht := withHeader_typed h.typed.types hw hdr
  unfold Level.withHeader at ht ⊢
  simp only [hc] at ht ⊢
  refine ⟨ht, h.table, ?_, h.dict, h.file, h.room, h.text, ?_⟩
  · intro c hx
    simp only [Option.some.injEq] at hx
    rw [← hx]; exact .refl _
  · intro w hx; exact h.win w hx

theorem PlainDec.chunk {d : Decoder} {s data : Bytes} (h : PlainDec d s) (hp : ¬ CustomTable (s ++ data)) :
    d.callSite (.chunk data) = none ∧
    ∀ o d', d.call (.chunk data) = .ok (⟨true, o⟩, d') → PlainDec d' (s ++ data) := by
  obtain ⟨hinv, hplan⟩ := h.typed.inv h.started
  have hnode := hinv.node
  have hin : d.top.InPlan := by
    intro p hp
    rw [hplan] at hp
    simp at hp
  have hd : ∃ n, d.depthBound data = n + 1 := ⟨_, rfl⟩
  obtain ⟨n, hn⟩ := hd
  have hwin : ∀ {L : Level} {u o : Bytes} {d' : Decoder}, LevelInv L → Plain L → L.cache ≠ none →
      (∀ L' ns' o', decodeChunkWindows L u = .ok L' ns' o' → L'.cache ≠ none) →
      (match decodeChunkWindows L u with
        | .ok L ns out => Except.ok ((⟨true, out⟩ : DecoderReply), (⟨L, ns⟩ : Decoder))
        | .error L out => .ok (⟨false, out⟩, ⟨L, []⟩)
        | .fault f => .error f) = .ok (⟨true, o⟩, d') →
      d'.top.started = true → DecTyped d' → PlainDec d' (s ++ data) := by
    intro L u o d' hL hi hc hcc he hst hty
    cases hr : decodeChunkWindows L u with
    | fault f => simp [hr] at he
    | error L' o' => simp [hr] at he
    | ok L' ns' o' =>
      simp only [hr, Except.ok.injEq, Prod.mk.injEq] at he
      rw [← he.2] at hst hty ⊢
      exact ⟨hty, hst, decodeChunkWindows_nested L u hr, windows_stable plain_stable hL hi hr,
        fun hx => absurd hx (hcc _ _ _ hr)⟩
  have hstart : ∀ o d', d.call (.chunk data) = .ok (⟨true, o⟩, d') → d'.top.started = true := by
    intro o d' he
    simp only [Decoder.call, decodeChunk_eq] at he
    cases hr : chunkRun d.top d.nested data with
    | fault f => simp [hr] at he
    | error L o => simp [hr] at he
    | ok L ns o =>
      simp only [hr, Except.ok.injEq, Prod.mk.injEq] at he
      rw [← he.2]
      exact ((chunk_inv hinv data).1 _ _ _ hr).inv.node.started
  have hkeep : ∀ {L : Level} {u : Bytes}, LevelInv L → L.cache ≠ none →
      ∀ L' ns' o', decodeChunkWindows L u = .ok L' ns' o' → L'.cache ≠ none := by
    intro L u hL hc L' ns' o' hr
    exact windows_stable cached_stable hL hc hr
  simp only [Decoder.callSite, Decoder.decodeChunkSite, hn, decodeChunkSiteFuel_succ h.started]
  cases hc : d.top.cache with
  | some c =>
    have hcn : d.top.cache ≠ none := by rw [hc]; simp
    simp only [h.nested, tableSite]
    refine ⟨h.plain.windows hnode.inv hcn hin _, ?_⟩
    intro o d' he
    have hst := hstart _ _ he
    have hty := h.typed.call he
    simp only [Decoder.call, decodeChunk_eq, chunkRun_eq, chunkStep] at he
    rw [if_neg (by rw [h.started]; simp), hc, h.nested] at he
    exact hwin hnode.inv h.plain hcn (hkeep hnode.inv hcn) he hst hty
  | none =>
    obtain ⟨f1, f2, f3⟩ := hnode.fresh hc
    simp only [h.fresh hc]
    have hsite : readFileHeaderSite (s ++ data) = none := by
      cases hx : readFileHeaderSite (s ++ data) with
      | none => rfl
      | some x =>
        exfalso
        obtain ⟨_, _, hb⟩ := readFileHeader_site hx
        apply hp
        rw [List.getD_eq_getElem?_getD] at hb
        cases hg : (s ++ data)[4]? with
        | none => rw [hg] at hb; simp at hb
        | some b => rw [hg] at hb; exact ⟨b, hg, hb⟩
    rw [hsite, Option.none_or]
    cases hh : readFileHeader (s ++ data) with
    | error =>
      refine ⟨rfl, ?_⟩
      intro o d' he
      simp only [Decoder.call, decodeChunk_eq, chunkRun_eq, chunkStep] at he
      rw [if_neg (by rw [h.started]; simp), hc, h.fresh hc, hh] at he
      simp [failed] at he
    | endOfData =>
      refine ⟨rfl, ?_⟩
      intro o d' he
      have hst := hstart _ _ he
      have hty := h.typed.call he
      simp only [Decoder.call, decodeChunk_eq, chunkRun_eq, chunkStep] at he
      rw [if_neg (by rw [h.started]; simp), hc, h.fresh hc, hh] at he
      simp only [endChunk_eq, Except.ok.injEq, Prod.mk.injEq] at he
      rw [← he.2] at hst hty ⊢
      exact ⟨hty, hst, h.nested, plain_stable.ended _ h.plain, fun _ => rfl⟩
    | ok hdr rest =>
      have hca := (readFileHeader_info hh).2 hp
      obtain ⟨i1, i2, i3, i4, i5, _⟩ := withHeader_inv hnode hc hdr
      have hP := h.plain.withHeader f1 hca
      have hp' : (d.top.withHeader hdr).InPlan := fun p _ => by rw [i5]; omega
      have e1 : nestedFor hdr d.nested = [] := by simp [nestedFor, hca, h.nested]
      simp only [e1, tableSite]
      refine ⟨hP.windows i1.inv i2 hp' _, ?_⟩
      intro o d' he
      have hst := hstart _ _ he
      have hty := h.typed.call he
      simp only [Decoder.call, decodeChunk_eq, chunkRun_eq, chunkStep] at he
      rw [if_neg (by rw [h.started]; simp), hc, h.fresh hc, hh] at he
      simp only [e1, tableStep] at he
      exact hwin i1.inv hP i2 (hkeep i1.inv i2) he hst hty

end Vcd
