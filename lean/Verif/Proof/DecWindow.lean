import Verif.Proof.WindowExt

/-!
# `DecodeWindow`: both formats together
-/

namespace Vcd
open Spec

/-- An address cache as constructed, or as left behind by some window. -/
def CacheAny (c : AddrCache) : Prop :=
  ∃ n s, c = AddrCache.new n s ∨ ∃ hist, c = AddrCache.ofHist n s hist

theorem CacheOk.any {c : AddrCache} {n s : Nat} (h : CacheOk c n s) : CacheAny c :=
  ⟨n, s, Or.inr h.2⟩

theorem CacheOk.nearSize {c : AddrCache} {n s : Nat} (h : CacheOk c n s) : c.nearSize = n := by
  obtain ⟨_, hist, rfl⟩ := h; rfl

theorem CacheAny.init {c c' : AddrCache} (h : CacheAny c) (hi : c.init = some c') :
    ∃ s, CacheOk c' c.nearSize s := by
  obtain ⟨n, s, rfl | ⟨hist, rfl⟩⟩ := h
  · rw [AddrCache.init_new] at hi
    split at hi
    · simp at hi
    · simp only [Option.some.injEq] at hi
      exact ⟨s, by simp [AddrCache.new]; omega, [], hi.symm⟩
  · rw [AddrCache.init_ofHist] at hi
    split at hi
    · simp at hi
    · simp only [Option.some.injEq] at hi
      exact ⟨s, by simp [AddrCache.ofHist]; omega, [], hi.symm⟩

/-- Invariant of the members of a decoder. -/
structure LevelInv (L : Level) : Prop where
  closed : L.win = none → L.startPos = L.decoded.length
  opened : ∀ w, L.win = some w → 0 < w.expected ∧
    L.decoded.length < L.startPos + w.hdr.targetLen ∧
    ∃ c n s, L.cache = some c ∧ OpenInv L w c n s
  cache : ∀ c, L.cache = some c → CacheAny c

/-- The number of bytes of the open window that have not been decoded yet. -/
def Level.owed (L : Level) : Nat :=
  match L.win with
  | none => 0
  | some w => L.startPos + w.hdr.targetLen - L.decoded.length

/-! ### Standard format -/

/-- The state in which the body of a standard-format window is entered. -/
def stdBody (L : Level) (w : OpenWindow) (c : AddrCache) (s : Bytes) : Body :=
  { pending := w.pending, inst := (s.drop w.hdr.dataLen).take w.hdr.instLen,
    data := s.take w.hdr.dataLen,
    addr := (s.drop (w.hdr.dataLen + w.hdr.instLen)).take w.hdr.addrLen, cache := c,
    decoded := L.decoded }

theorem dwb_std {L : Level} {w : OpenWindow} {c : AddrCache} {s : Bytes}
    (hi : w.hdr.interleaved = false) :
    decodeWindowBody L w c s =
      match bodyRun (L.env w.hdr) (stdBody L w c s) with
      | .fault f => .fault f
      | .error => .error
      | .endOfData _ => .error
      | .ok b' =>
        if bodyEndOk (L.env w.hdr) b' = true ∧ b'.inst = [] then
          .ok (L.closed b') (s.drop (w.hdr.dataLen + w.hdr.instLen + w.hdr.addrLen))
        else .error := by
  rw [decodeWindowBody, if_neg (by simp [hi])]
  dsimp only
  rw [decodeBody_eq]
  change (match (match bodyRun (L.env w.hdr) (stdBody L w c s) with
    | .ok b' => if bodyEndOk (L.env w.hdr) b' = true ∧ b'.inst = [] then BodyResult.ok b' else .error
    | r => r) with
    | .fault f => _ | .error => _ | .endOfData _ => _ | .ok b' => _) = _
  cases bodyRun (L.env w.hdr) (stdBody L w c s) with
  | error => rfl
  | fault f => rfl
  | endOfData b' => rfl
  | ok b' =>
    by_cases h : bodyEndOk (L.env w.hdr) b' = true ∧ b'.inst = []
    · simp only
      rw [if_pos h, if_pos h]
      rfl
    · simp only
      rw [if_neg h, if_neg h]

theorem stdBody_append {L : Level} {w : OpenWindow} {c : AddrCache} {s : Bytes}
    (hl : w.hdr.dataLen + w.hdr.instLen + w.hdr.addrLen ≤ s.length) (t : Bytes) :
    stdBody L w c (s ++ t) = stdBody L w c s := by
  unfold stdBody
  rw [List.drop_append_of_le_length (l₁ := s) (i := w.hdr.dataLen) (by omega),
    List.take_append_of_le_length (l₁ := s.drop w.hdr.dataLen) (by rw [List.length_drop]; omega),
    List.drop_append_of_le_length (l₁ := s) (i := w.hdr.dataLen + w.hdr.instLen) (by omega),
    List.take_append_of_le_length (l₁ := s.drop (w.hdr.dataLen + w.hdr.instLen))
      (by rw [List.length_drop]; omega),
    List.take_append_of_le_length (l₁ := s) (by omega)]

/-- The same result with more bytes left over. -/
def WinResult.extend (t : Bytes) : WinResult → WinResult
  | .ok L r => .ok L (r ++ t)
  | .endOfData L r => .endOfData L (r ++ t)
  | r => r

theorem dwb_std_extend {L : Level} {w : OpenWindow} {c : AddrCache} {s : Bytes}
    (hi : w.hdr.interleaved = false)
    (hl : w.hdr.dataLen + w.hdr.instLen + w.hdr.addrLen ≤ s.length) (t : Bytes) :
    decodeWindowBody L w c (s ++ t) = (decodeWindowBody L w c s).extend t := by
  rw [dwb_std hi, dwb_std hi, stdBody_append hl]
  cases bodyRun (L.env w.hdr) (stdBody L w c s) with
  | error => rfl
  | fault f => rfl
  | endOfData b' => rfl
  | ok b' =>
    simp only
    split
    · rw [List.drop_append_of_le_length hl]; rfl
    · rfl

theorem dwb_std_inv {L : Level} {w : OpenWindow} {c : AddrCache} {n m : Nat}
    (hi : w.hdr.interleaved = false) (hw : WinInv (L.env w.hdr) L.decoded) (hc : CacheOk c n m)
    (s : Bytes) :
    (∀ L' r, decodeWindowBody L w c s = .ok L' r →
      r = s.drop (w.hdr.dataLen + w.hdr.instLen + w.hdr.addrLen) ∧
      ∃ b', L' = L.closed b' ∧ CacheOk b'.cache n m ∧ (∃ bytes, b'.decoded = L.decoded ++ bytes) ∧
        b'.decoded.length = L.startPos + w.hdr.targetLen) ∧
    (∀ L' r, decodeWindowBody L w c s ≠ .endOfData L' r) ∧
    (∀ f, decodeWindowBody L w c s = .fault f → f = .nearOverflow ∨ (f = .cacheOob ∧ n = 254)) := by
  have hb : BodyInv (L.env w.hdr) n m (stdBody L w c s) := ⟨hw, hc⟩
  obtain ⟨i1, i2, i3⟩ := bodyRun_inv _ hb
  rw [dwb_std hi]
  cases hr : bodyRun (L.env w.hdr) (stdBody L w c s) with
  | error => simp
  | endOfData b' => simp
  | fault f =>
    refine ⟨by simp, by simp, ?_⟩
    intro f' hf
    simp only [WinResult.fault.injEq] at hf
    subst hf
    exact i3 _ hr
  | ok b' =>
    obtain ⟨j1, j2, j3, j4⟩ := i1 _ hr
    simp only
    split
    · refine ⟨?_, by simp, by simp⟩
      intro L' r h'
      simp only [WinResult.ok.injEq] at h'
      obtain ⟨rfl, rfl⟩ := h'
      exact ⟨rfl, b', rfl, j1.cache, j2, j3⟩
    · simp

/-! ### The window decoder -/

/-- Members that a (partially) decoded window changes. -/
def Level.after (L : Level) (c : AddrCache) (d : Bytes) (w : Option OpenWindow) (sp tot : Nat) : Level :=
  { L with cache := some c, decoded := L.decoded ++ d, win := w, startPos := sp, total := tot }

/-- The members after a window header has been read. -/
def Level.opened (L : Level) (hdr : WinHeader) : Level := { L with total := L.total + hdr.targetLen }

/-- A window whose header has just been read. -/
def newWindow (hdr : WinHeader) : OpenWindow := { hdr := hdr, expected := hdr.instLen, pending := none }

theorem decodeWindow_none {L : Level} (h : L.win = none) (s : Bytes) :
    decodeWindow L s =
      match readHeader L s with
      | .endOfData => .endOfData L s
      | .error => .error
      | .ok hdr rest =>
        match L.cache.bind AddrCache.init with
        | none => .error
        | some cache => decodeWindowBody (L.opened hdr) (newWindow hdr) cache rest := by
  rw [decodeWindow, h]; rfl

theorem decodeWindow_some {L : Level} {w : OpenWindow} {c : AddrCache} (h : L.win = some w)
    (hi : w.hdr.interleaved = true) (hc : L.cache = some c) (s : Bytes) :
    decodeWindow L s = decodeWindowBody L w c s := by
  rw [decodeWindow, h]; simp [hi, hc]

/-- The window invariant right after the header. -/
theorem newWindow_inv {L : Level} (hL : LevelInv L) (hn : L.win = none) {s rest : Bytes}
    {hdr : WinHeader} (hr : readHeader L s = .ok hdr rest) :
    WinInv ((L.opened hdr).env (newWindow hdr).hdr) (L.opened hdr).decoded := by
  obtain ⟨_, h1, h2, h3, _⟩ := readHeader_ok hr
  have := hL.closed hn
  exact ⟨h1, h2, h3, by simp [Level.env, Level.opened, this], by simp [Level.env, Level.opened, this]⟩

/-- The outcomes of `DecodeWindow`. -/
theorem decodeWindow_inv {L : Level} (hL : LevelInv L) (s : Bytes) :
    (∀ L' r, decodeWindow L s = .ok L' r → LevelInv L' ∧ L'.win = none ∧
      (∃ pre, s = pre ++ r ∧ (s ≠ [] → pre ≠ [])) ∧
      (∃ c d tot, CacheAny c ∧ L' = L.after c d none (L.decoded.length + d.length) tot ∧
        tot + L.owed = L.total + d.length ∧ (∀ c0, L.cache = some c0 → c.nearSize = c0.nearSize)) ∧
      (L.win = none → ∃ hdr rest, readHeader L s = .ok hdr rest ∧ L'.total = L.total + hdr.targetLen) ∧
      (∀ w, L.win = some w → L'.total = L.total)) ∧
    (∀ L' r, decodeWindow L s = .endOfData L' r → (L.win = none ∧ L' = L ∧ r = s) ∨
      (LevelInv L' ∧ (∃ pre, s = pre ++ r) ∧
       (∃ c d w sp tot, CacheAny c ∧ L' = L.after c d (some w) sp tot ∧
        tot + L.owed + L.decoded.length = L.total + L'.owed + L'.decoded.length ∧
        (∀ c0, L.cache = some c0 → c.nearSize = c0.nearSize) ∧
        (w.pending = none → skipNoops L.table (r.take w.expected) = [] → r = [])) ∧
       (L.win = none → ∃ hdr rest, readHeader L s = .ok hdr rest ∧ L'.total = L.total + hdr.targetLen ∧
          hdr.interleaved = true) ∧
       (∀ w, L.win = some w → L'.total = L.total ∧ L'.startPos = L.startPos ∧
         ∃ w', L'.win = some w' ∧ w'.hdr = w.hdr))) ∧
    (∀ f, decodeWindow L s = .fault f → f = .nearOverflow ∨
      (f = .cacheOob ∧ ∃ c, L.cache = some c ∧ c.nearSize = 254)) := by
  cases hw : L.win with
  | none =>
    have hsp := hL.closed hw
    rw [decodeWindow_none hw]
    cases hr : readHeader L s with
    | endOfData =>
      refine ⟨by simp, ?_, by simp⟩
      intro L' r h
      simp only [WinResult.endOfData.injEq] at h
      exact Or.inl ⟨rfl, h.1.symm, h.2.symm⟩
    | error => simp
    | ok hdr rest =>
      have hrh := readHeader_ok hr
      obtain ⟨⟨pre, hpre, hprel⟩, hsrc, hsl, htl, hil, hwe, hint, hstd, _⟩ := hrh
      simp only
      cases hc : L.cache with
      | none => simp
      | some c0 =>
        simp only [Option.bind_some]
        cases hci : c0.init with
        | none => simp
        | some c =>
          simp only
          obtain ⟨m, hcok⟩ := (hL.cache _ hc).init hci
          have hwin := newWindow_inv hL hw hr
          by_cases hi : hdr.interleaved = true
          · have hopen : OpenInv (L.opened hdr) (newWindow hdr) c c0.nearSize m := ⟨hi, hwin, hcok⟩
            obtain ⟨i1, i2, i3⟩ := dwb_inter_inv hopen rest
            refine ⟨?_, ?_, ?_⟩
            · intro L' r h
              obtain ⟨hr1, b', hL', hck, ⟨by1, hby⟩, hlen⟩ := i1 _ _ h
              subst hL'
              have hdl : by1.length = hdr.targetLen := by
                have := congrArg List.length hby
                simp only [List.length_append, Level.opened, newWindow] at this hlen
                omega
              refine ⟨⟨fun _ => rfl, by simp [Level.closed], ?_⟩, rfl, ?_, ?_, ?_, by simp⟩
              · intro c1 hc1
                simp only [Level.closed, Option.some.injEq] at hc1
                subst hc1
                exact hck.any
              · refine ⟨pre ++ rest.take (newWindow hdr).expected, ?_, ?_⟩
                · rw [hr1, List.append_assoc, List.take_append_drop, hpre]
                · intro _ h0
                  have := congrArg List.length h0
                  simp only [List.length_append, List.length_nil] at this
                  omega
              · refine ⟨b'.cache, by1, L.total + hdr.targetLen, hck.any, ?_, ?_, ?_⟩
                · simp only [Level.closed, Level.opened, Level.after, hby]
                  simp
                · simp [Level.owed, hw, hdl]
                · intro c1 hc1
                  simp only [Option.some.injEq] at hc1
                  subst hc1
                  exact hck.nearSize
              · intro _
                exact ⟨hdr, rest, rfl, rfl⟩
            · intro L' r h
              right
              obtain ⟨e, b', rfl, hpos, hle, ⟨pre', hpre', hpe⟩, hrr, hbe, hlt, hge, hcache, ⟨by1, hby⟩,
                hdl, hrun, hbeq, hrun', hskip0⟩ := i2 _ _ h
              have hst : (L.opened hdr).startPos = L.startPos := rfl
              rw [hst] at hdl
              have hth : (newWindow hdr).hdr.targetLen = hdr.targetLen := rfl
              rw [hth] at hdl
              have htk : r.take e = b'.inst := by
                rw [hrr]
                by_cases hx : b'.inst.length < e
                · have := hlt hx
                  rw [List.drop_eq_nil_of_le (by omega), List.append_nil]
                  exact List.take_of_length_le (by omega)
                · have : e = b'.inst.length := by omega
                  rw [this, List.take_left']; rfl
              refine ⟨⟨by simp [Level.suspended], ?_, ?_⟩, ?_, ?_, ?_, by simp⟩
              · intro w' hw'
                simp only [Level.suspended, Option.some.injEq] at hw'
                subst hw'
                refine ⟨hpos, hdl, b'.cache, c0.nearSize, m, rfl, hi, ?_, hcache⟩
                have := (bodyRun_inv _ (hopen.body rest)).2.1 _ hrun
                exact this.1.win
              · intro c1 hc1
                simp only [Level.suspended, Option.some.injEq] at hc1
                subst hc1
                exact hcache.any
              · exact ⟨pre ++ pre', by rw [hpre, hpre']; simp⟩
              · refine ⟨b'.cache, by1, { newWindow hdr with expected := e, pending := b'.pending }, L.startPos,
                  L.total + hdr.targetLen, hcache.any, ?_, ?_, ?_, ?_⟩
                · simp only [Level.suspended, Level.opened, Level.after, hby]
                · simp only [Level.owed, hw, Level.suspended, Level.opened, newWindow]
                  have := congrArg List.length hby
                  simp only [List.length_append, Level.opened] at this
                  omega
                · intro c1 hc1
                  simp only [Option.some.injEq] at hc1
                  subst hc1
                  exact hcache.nearSize
                · intro hp hs
                  simp only at hp hs
                  rw [htk] at hs
                  have h0 := hskip0 hp hs
                  rw [hrr, h0, List.nil_append]
                  apply List.drop_eq_nil_of_le
                  have : b'.inst.length < e := by rw [h0]; exact hpos
                  have := hlt this
                  omega
              · intro _
                exact ⟨hdr, rest, rfl, rfl, hi⟩
            · intro f h
              rcases i3 _ h with h | h
              · exact Or.inl h
              · exact Or.inr ⟨h.1, c0, rfl, h.2⟩
          · have hi' : hdr.interleaved = false := by simpa using hi
            obtain ⟨i1, i2, i3⟩ := dwb_std_inv (w := newWindow hdr) hi' hwin hcok rest
            refine ⟨?_, ?_, ?_⟩
            · intro L' r h
              obtain ⟨hr1, b', hL', hck, ⟨by1, hby⟩, hlen⟩ := i1 _ _ h
              subst hL'
              have hdl : by1.length = hdr.targetLen := by
                have := congrArg List.length hby
                simp only [List.length_append, Level.opened, newWindow] at this hlen
                omega
              refine ⟨⟨fun _ => rfl, by simp [Level.closed], ?_⟩, rfl, ?_, ?_, ?_, by simp⟩
              · intro c1 hc1
                simp only [Level.closed, Option.some.injEq] at hc1
                subst hc1
                exact hck.any
              · refine ⟨pre ++ rest.take (hdr.dataLen + hdr.instLen + hdr.addrLen), ?_, ?_⟩
                · rw [hr1, List.append_assoc]
                  simp only [newWindow]
                  rw [List.take_append_drop, hpre]
                · intro _ h0
                  have := congrArg List.length h0
                  simp only [List.length_append, List.length_nil] at this
                  omega
              · refine ⟨b'.cache, by1, L.total + hdr.targetLen, hck.any, ?_, ?_, ?_⟩
                · simp only [Level.closed, Level.opened, Level.after, hby]
                  simp
                · simp [Level.owed, hw, hdl]
                · intro c1 hc1
                  simp only [Option.some.injEq] at hc1
                  subst hc1
                  exact hck.nearSize
              · intro _
                exact ⟨hdr, rest, rfl, rfl⟩
            · intro L' r h
              exact absurd h (i2 _ _)
            · intro f h
              rcases i3 _ h with h | h
              · exact Or.inl h
              · exact Or.inr ⟨h.1, c0, rfl, h.2⟩
  | some w =>
    obtain ⟨hex, hlt0, c, n, m, hc, hopen⟩ := hL.opened w hw
    rw [decodeWindow_some hw hopen.inter hc]
    obtain ⟨i1, i2, i3⟩ := dwb_inter_inv hopen s
    refine ⟨?_, ?_, ?_⟩
    · intro L' r h
      obtain ⟨hr1, b', hL', hck, ⟨by1, hby⟩, hlen⟩ := i1 _ _ h
      subst hL'
      have hlb := congrArg List.length hby
      rw [List.length_append] at hlb
      refine ⟨⟨fun _ => rfl, by simp [Level.closed], ?_⟩, rfl, ?_, ?_, by simp, ?_⟩
      · intro c1 hc1
        simp only [Level.closed, Option.some.injEq] at hc1
        subst hc1
        exact hck.any
      · refine ⟨s.take w.expected, ?_, ?_⟩
        · rw [hr1, List.take_append_drop]
        · intro h0 h1
          cases s with
          | nil => exact h0 rfl
          | cons x s =>
            cases hwe : w.expected with
            | zero => omega
            | succ k => rw [hwe] at h1; simp at h1
      · refine ⟨b'.cache, by1, L.total, hck.any, ?_, ?_, ?_⟩
        · simp only [Level.closed, Level.after, hby]
          simp
        · simp only [Level.owed, hw]
          omega
        · intro c1 hc1
          rw [hc] at hc1
          simp only [Option.some.injEq] at hc1
          subst hc1
          rw [hck.nearSize, hopen.cache.nearSize]
      · intro w' _; rfl
    · intro L' r h
      right
      obtain ⟨e, b', rfl, hpos, hle, ⟨pre', hpre', hpe⟩, hrr, hbe, hlt, hge, hcache, ⟨by1, hby⟩,
        hdl, hrun, hbeq, hrun', hskip0⟩ := i2 _ _ h
      have htk : r.take e = b'.inst := by
        rw [hrr]
        by_cases hx : b'.inst.length < e
        · have := hlt hx
          rw [List.drop_eq_nil_of_le (by omega), List.append_nil]
          exact List.take_of_length_le (by omega)
        · have : e = b'.inst.length := by omega
          rw [this, List.take_left']; rfl
      refine ⟨⟨by simp [Level.suspended], ?_, ?_⟩, ?_, ?_, by simp, ?_⟩
      · intro w' hw'
        simp only [Level.suspended, Option.some.injEq] at hw'
        subst hw'
        refine ⟨hpos, hdl, b'.cache, n, m, rfl, hopen.inter, ?_, hcache⟩
        have := (bodyRun_inv _ (hopen.body s)).2.1 _ hrun
        exact this.1.win
      · intro c1 hc1
        simp only [Level.suspended, Option.some.injEq] at hc1
        subst hc1
        exact hcache.any
      · exact ⟨pre', hpre'⟩
      · refine ⟨b'.cache, by1, { w with expected := e, pending := b'.pending }, L.startPos, L.total,
          hcache.any, ?_, ?_, ?_, ?_⟩
        · simp only [Level.suspended, Level.after, hby]
        · simp only [Level.owed, hw, Level.suspended]
          have := congrArg List.length hby
          simp only [List.length_append] at this
          omega
        · intro c1 hc1
          rw [hc] at hc1
          simp only [Option.some.injEq] at hc1
          subst hc1
          rw [hcache.nearSize, hopen.cache.nearSize]
        · intro hp hs
          simp only at hp hs
          rw [htk] at hs
          have h0 := hskip0 hp hs
          rw [hrr, h0, List.nil_append]
          apply List.drop_eq_nil_of_le
          have : b'.inst.length < e := by rw [h0]; exact hpos
          have := hlt this
          omega
      · intro w' hw'
        simp only [Option.some.injEq] at hw'
        subst hw'
        exact ⟨rfl, rfl, _, rfl, rfl⟩
    · intro f h
      rcases i3 _ h with h | h
      · exact Or.inl h
      · exact Or.inr ⟨h.1, c, hc, by rw [hopen.cache.nearSize]; exact h.2⟩

/-- `DecodeWindow` when more input arrives. -/
theorem decodeWindow_extend {L : Level} (hL : LevelInv L) (s t : Bytes) :
    (∀ f, decodeWindow L s = .fault f → decodeWindow L (s ++ t) = .fault f) ∧
    (decodeWindow L s = .error → decodeWindow L (s ++ t) = .error) ∧
    (∀ L' r, decodeWindow L s = .ok L' r → decodeWindow L (s ++ t) = .ok L' (r ++ t) ∨
      (decodeWindow L (s ++ t) = .error ∧ r = [] ∧
        (L.win = none → L.allowExtensions = true))) ∧
    (∀ L' r, decodeWindow L s = .endOfData L' r →
      (decodeWindow L (s ++ t)).skip = (decodeWindow L' (r ++ t)).skip ∧
      decodeWindow L' r = .endOfData L' r ∧
      ∀ L2 r2, decodeWindow L (s ++ t) = .ok L2 r2 → r2.length ≤ t.length) := by
  cases hw : L.win with
  | none =>
    have e1 := decodeWindow_none hw s
    have e2 := decodeWindow_none hw (s ++ t)
    cases hr : readHeader L s with
    | endOfData =>
      simp only [hr] at e1
      rw [e1]
      refine ⟨by simp, by simp, by simp, ?_⟩
      intro L' r h
      simp only [WinResult.endOfData.injEq] at h
      obtain ⟨rfl, rfl⟩ := h
      refine ⟨rfl, e1, ?_⟩
      intro L2 r2 h2
      obtain ⟨j1, j2, ⟨pre, hpre, _⟩, _⟩ := (decodeWindow_inv hL (s ++ t)).1 _ _ h2
      by_cases hle : r2.length ≤ t.length
      · exact hle
      exfalso
      -- r2 = r0 ++ t with s = pre ++ r0
      rw [e2] at h2
      cases hr2 : readHeader L (s ++ t) with
      | endOfData => simp [hr2] at h2
      | error => simp [hr2] at h2
      | ok hdr rest =>
        rw [readHeader_eq] at hr hr2
        obtain ⟨f, rest', g1, g2⟩ := Parsed.bind_eq_ok.1 hr2
        obtain ⟨pf, hpf, hloc⟩ := (Local.headerFields L).ok g1
        have hrest : rest' = rest := by
          split at g2
          · simp at g2
          · simp only [Parsed.ok.injEq] at g2; exact g2.2
        have hhdr : mkHeader L f = hdr := by
          split at g2
          · simp at g2
          · simp only [Parsed.ok.injEq] at g2; exact g2.1
        subst hrest hhdr
        -- the rest after the window
        have hsuf : ∃ k, r2 = rest'.drop k ∧
            (headerInterleaved L f.2.2 = false → f.2.2.dataLen + f.2.2.instLen + f.2.2.addrLen ≤ k) := by
          have hr2' : readHeader L (s ++ t) = .ok (mkHeader L f) rest' := by
            rw [readHeader_eq]; exact hr2
          have hwin := newWindow_inv hL hw hr2'
          rw [hr2'] at h2
          simp only at h2
          cases hc : L.cache with
          | none => simp [hc] at h2
          | some c0 =>
            simp only [hc, Option.bind_some] at h2
            cases hci : c0.init with
            | none => simp [hci] at h2
            | some c =>
              simp only [hci] at h2
              obtain ⟨m, hcok⟩ := (hL.cache _ hc).init hci
              by_cases hi : (mkHeader L f).interleaved = true
              · have := ((dwb_inter_inv (L := L.opened (mkHeader L f)) (w := newWindow (mkHeader L f))
                  ⟨hi, hwin, hcok⟩ rest').1 _ _ h2).1
                exact ⟨_, this, fun hf => by
                  have : headerInterleaved L f.2.2 = true := hi
                  rw [this] at hf; simp at hf⟩
              · have := ((dwb_std_inv (L := L.opened (mkHeader L f)) (w := newWindow (mkHeader L f))
                  (by simpa [newWindow] using hi) hwin hcok rest').1 _ _ h2).1
                exact ⟨_, this, fun _ => Nat.le_refl _⟩
        obtain ⟨k, hk1, hk2⟩ := hsuf
        have hlr : r2.length = rest'.length - k := by rw [hk1, List.length_drop]
        have hlen : t.length < rest'.length := by omega
        -- so the header is complete in s
        have hsplit : ∃ r0, rest' = r0 ++ t ∧ s = pf ++ r0 := by
          have hx : s ++ t = pf ++ rest' := hpf
          rcases List.append_eq_append_iff.1 hx with ⟨a, ha1, ha2⟩ | ⟨a, ha1, ha2⟩
          · have := congrArg List.length ha2
            rw [List.length_append] at this
            omega
          · exact ⟨a, ha2, ha1⟩
        obtain ⟨r0, hr0, hs0⟩ := hsplit
        rw [hs0, hloc r0, Parsed.bind_ok] at hr
        split at hr
        · rename_i hcond
          simp only [Bool.and_eq_true, Bool.not_eq_true', decide_eq_true_eq] at hcond
          have := hk2 hcond.1
          rw [hr0, List.length_append] at hlr
          omega
        · simp at hr
    | error =>
      have := (Stable.readHeader L).error hr t
      simp only [hr] at e1
      simp only [this] at e2
      simp [e1, e2]
    | ok hdr rest =>
      have hx := ((Stable.readHeader L).ok hr).2 t
      have hrh := readHeader_ok hr
      obtain ⟨⟨pre, hpre, hprel⟩, hsrc, hsl, htl, hil, hwe, hint, hstd, _⟩ := hrh
      simp only [hr] at e1
      simp only [hx] at e2
      cases hc : L.cache with
      | none => simp [hc] at e1 e2; simp [e1, e2]
      | some c0 =>
        simp only [hc, Option.bind_some] at e1 e2
        cases hci : c0.init with
        | none => simp [hci] at e1 e2; simp [e1, e2]
        | some c =>
          simp only [hci] at e1 e2
          rw [e1, e2]
          obtain ⟨m, hcok⟩ := (hL.cache _ hc).init hci
          have hwin := newWindow_inv hL hw hr
          by_cases hi : hdr.interleaved = true
          · have hopen : OpenInv (L.opened hdr) (newWindow hdr) c c0.nearSize m := ⟨hi, hwin, hcok⟩
            obtain ⟨x1, x2, x3, x4⟩ := dwb_inter_extend hopen rest t
            refine ⟨x1, x2, ?_, ?_⟩
            · intro L' r h
              rcases x3 L' r h with h | h
              · exact Or.inl h.1
              · exact Or.inr ⟨h.1, h.2.2, fun _ => (hint hi).1⟩
            · intro L' r h
              obtain ⟨e, b', hL', _⟩ := (dwb_inter_inv hopen rest).2.1 _ _ h
              have y := x4 L' r h
              rw [hL'] at y
              obtain ⟨y1, y2, y3⟩ := y _ _ rfl rfl
              rw [← hL'] at y1 y2
              have hLw : ∀ u, decodeWindow L' u
                  = decodeWindowBody L' { newWindow hdr with expected := e, pending := b'.pending }
                      b'.cache u := by
                intro u
                rw [hL']
                exact decodeWindow_some (L := (L.opened hdr).suspended (newWindow hdr) e b') rfl hi rfl u
              rw [hLw, hLw]
              exact ⟨y1, y2, y3⟩
          · have hi' : hdr.interleaved = false := by simpa using hi
            have hse := dwb_std_extend (L := L.opened hdr) (w := newWindow hdr) (c := c) (s := rest)
              hi' (hstd hi') t
            rw [hse]
            refine ⟨?_, ?_, ?_, ?_⟩
            · intro f h; rw [h]; rfl
            · intro h; rw [h]; rfl
            · intro L' r h; rw [h]; exact Or.inl rfl
            · intro L' r h
              exact absurd h ((dwb_std_inv (w := newWindow hdr) hi' hwin hcok rest).2.1 _ _)
  | some w =>
    obtain ⟨hex, hlt0, c, n, m, hc, hopen⟩ := hL.opened w hw
    rw [decodeWindow_some hw hopen.inter hc, decodeWindow_some hw hopen.inter hc]
    obtain ⟨x1, x2, x3, x4⟩ := dwb_inter_extend hopen s t
    refine ⟨x1, x2, ?_, ?_⟩
    · intro L' r h
      rcases x3 L' r h with h | h
      · exact Or.inl h.1
      · exact Or.inr ⟨h.1, h.2.2, by simp⟩
    · intro L' r h
      obtain ⟨e, b', hL', _⟩ := (dwb_inter_inv hopen s).2.1 _ _ h
      have y := x4 L' r h
      rw [hL'] at y
      obtain ⟨y1, y2, y3⟩ := y _ _ rfl rfl
      rw [← hL'] at y1 y2
      have hLw : ∀ u, decodeWindow L' u
          = decodeWindowBody L' { w with expected := e, pending := b'.pending } b'.cache u := by
        intro u
        rw [hL']
        exact decodeWindow_some (L := L.suspended w e b') rfl hopen.inter rfl u
      rw [hLw, hLw]
      exact ⟨y1, y2, y3⟩

end Vcd
