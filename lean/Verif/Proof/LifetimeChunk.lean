import Verif.Proof.LifetimeHeader

/-!
# The decoder with its pointers does what the decoder without them does: chunks
-/

namespace Vcd.Lifetime
open Spec

/-! ### Windows -/

theorem Scal.setCacheWin {P : Level} {L : Vcd.Level} (h : Scal P L) (c c' : Option AddrCache) (w : Option OpenWindow) :
    Scal { P with cache := c } { L with cache := c', win := w } :=
  ⟨h.table, h.started, h.dict, h.dictSize, h.version, h.planned, h.maxFile, h.maxWin, h.total, h.allowTarget, h.outPos, h.tableString,
    h.decoded, h.startPos, h.low⟩

theorem Rel.tidy {P : Level} {L : Vcd.Level} (h : Rel P L) : Tidy P.window P.mem := by
  cases hw : L.win with
  | none => exact Or.inl (h.closed hw).2.2
  | some w => exact Or.inr (Or.inl (h.opened w hw).shared)

theorem WinRel.trans {P Q : Level} (hs : SameInput P.mem Q.mem) (hc : Config P Q) {r : Except Bad (Outcome × Level × Chunk)} {x : WinResult}
    (h : WinRel Q r x) : WinRel P r x := by
  cases x with
  | ok L rest => obtain ⟨P', c', h1, h2, h3, h4⟩ := h; exact ⟨P', c', h1, h2, h3, hs.trans h4⟩
  | endOfData L rest => obtain ⟨P', c', h1, h2, h3, h4⟩ := h; exact ⟨P', c', h1, h2, h3, hs.trans h4⟩
  | error => obtain ⟨P', c', h1, h2, h3⟩ := h; exact ⟨P', c', h1, h2, hc.trans h3⟩
  | fault f => exact h

theorem decodeWindow_rel {P : Level} {L : Vcd.Level} (hR : Rel P L) (hcache : L.cache ≠ none) {chunk : Chunk} {s : Bytes}
    (hat : At P.mem chunk s) : WinRel P (P.decodeWindow chunk) (Vcd.decodeWindow L s) := by
  obtain ⟨cache, hcache⟩ := Option.ne_none_iff_exists'.1 hcache
  unfold Level.decodeWindow Vcd.decodeWindow
  cases hw : L.win with
  | none =>
    obtain ⟨hfound, _, _⟩ := hR.closed hw
    have hh := readHeader_rel hR hw hat
    rw [hfound, if_neg (by simp)]
    simp only
    cases hv : Vcd.readHeader L s with
    | endOfData =>
      rw [hv] at hh
      rw [show P.readHeader chunk = _ from hh, ok_bind]
      exact ⟨P, chunk, rfl, hR, hat, SameInput.rfl' _⟩
    | error =>
      rw [hv] at hh
      rw [show P.readHeader chunk = _ from hh, ok_bind]
      exact ⟨P, chunk, rfl, hR.tidy, Config.refl P⟩
    | ok hdr rest =>
      rw [hv] at hh
      obtain ⟨Q, c', h1, h2⟩ := hh
      rw [h1, ok_bind, hcache]
      simp only [Option.bind_some]
      rw [h2.cache, hR.cache, hcache]
      simp only
      cases hi : cache.init with
      | none => exact ⟨Q, c', rfl, h2.tidy, h2.config⟩
      | some cache' =>
        simp only
        refine WinRel.trans (Q := { Q with cache := some cache' }) h2.same (h2.config.trans ⟨rfl, rfl, rfl, rfl, rfl⟩) ?_
        cases hx : hdr.interleaved with
        | true =>
          obtain ⟨i1, i2, i3⟩ := h2.inter hx
          exact bodyInterleaved_rel (w := { hdr := hdr, expected := hdr.instLen, pending := none }) (h2.scal.setCacheWin (some cache') (some cache) none) hx i1 h2.found
            (i2 cache') h2.holds i3
        | false =>
          obtain ⟨i1, i2, i3⟩ := h2.std hx
          exact bodyStandard_rel (w := { hdr := hdr, expected := hdr.instLen, pending := none }) (h2.scal.setCacheWin (some cache') (some cache) none) hx (i2 cache') h2.holds
            i1 i3
  | some w =>
    have ho := hR.opened w hw
    obtain ⟨i0, hsh⟩ := ho.shared
    have hint : P.isInterleaved = true := by
      unfold Level.isInterleaved
      rw [hsh.addr]; rfl
    rw [ho.found, if_pos rfl, hint]
    simp only [ho.interleaved, Bool.not_true, Bool.false_eq_true, if_false, hcache]
    obtain ⟨i, objects, u1, u2, u3⟩ := updateInterleaved_eq hat ho.expected (Or.inr ho.shared)
    rw [u1, ok_bind]
    simp only [Level.withSections]
    have hg := get_live (m := { P.mem with objects }) (c := .over chunk.pos (min w.expected s.length)) u2
    simp only [Reader.update, hg, ok_bind]
    refine WinRel.trans (P := P) (Q := { P with
      mem := { P.mem with objects }
      window := { P.window with
        inst := ⟨some i, true⟩, data := ⟨some i, false⟩, addr := ⟨some i, false⟩, expected := w.expected
        reader := { P.window.reader with
          position := some (i, chunk.pos.add (min w.expected s.length)), lastStart := some chunk.pos, lastPending := P.window.reader.pending } } })
      ⟨rfl, rfl, rfl⟩ ⟨rfl, rfl, rfl, rfl, rfl⟩ ?_
    have hS := hR.scal
    refine bodyInterleaved_rel (w := w)
      ⟨hS.table, hS.started, hS.dict, hS.dictSize, hS.version, hS.planned, hS.maxFile, hS.maxWin, hS.total, hS.allowTarget, hS.outPos,
        hS.tableString, hS.decoded, hS.startPos, hS.low⟩ ho.interleaved rfl ho.found
      ⟨hS.table, ho.pending, hR.cache.trans hcache, hS.decoded, ⟨hS.startPos, ho.cap⟩, ho.sourceLen, ho.targetLen, ho.checksum, hS.low, ?_, ?_⟩
      (hat.same ⟨rfl, rfl, rfl⟩) ?_
    · exact ho.source.grow (x := []) rfl rfl rfl (List.append_nil _).symm
    · refine Or.inl ⟨ho.interleaved, i, _, ⟨rfl, rfl, rfl, u3⟩, u2, ?_, rfl⟩
      have hx : At P.mem chunk (s.take w.expected ++ s.drop w.expected) := by
        rw [List.take_append_drop]; exact hat
      exact (hx.over (n := min w.expected s.length) (by rw [List.length_take])).same ⟨rfl, rfl, rfl⟩
    · intro j c hj hc
      have : j = i := (Option.some.inj hj).symm
      subst this
      have e : c = .over chunk.pos (min w.expected s.length) :=
        (Option.some.inj (Option.some.inj (u2.symm.trans hc))).symm
      rw [e]
      exact ⟨rfl, rfl⟩

/-- The members that stay the same while windows are decoded. -/
structure Keeps (L L' : Vcd.Level) : Prop where
  table : L'.table = L.table
  maxFile : L'.maxFile = L.maxFile
  maxWin : L'.maxWin = L.maxWin
  allowTarget : L'.allowTarget = L.allowTarget
  tableString : L'.tableString = L.tableString
  started : L'.started = L.started

theorem Keeps.refl (L : Vcd.Level) : Keeps L L := ⟨rfl, rfl, rfl, rfl, rfl, rfl⟩

theorem Keeps.trans {A B C : Vcd.Level} (h : Keeps A B) (k : Keeps B C) : Keeps A C :=
  ⟨k.table.trans h.table, k.maxFile.trans h.maxFile, k.maxWin.trans h.maxWin, k.allowTarget.trans h.allowTarget,
    k.tableString.trans h.tableString, k.started.trans h.started⟩

theorem decodeWindowBody_keeps {L L' : Vcd.Level} {w : OpenWindow} {cache : AddrCache} {s r : Bytes}
    (h : Vcd.decodeWindowBody L w cache s = .ok L' r ∨ Vcd.decodeWindowBody L w cache s = .endOfData L' r) :
    Keeps L L' ∧ L'.cache ≠ none := by
  unfold Vcd.decodeWindowBody at h
  simp only at h
  split at h
  · split at h
    · simp at h
    · simp at h
    · simp only [WinResult.ok.injEq, reduceCtorEq, or_false] at h
      rw [← h.1]; exact ⟨⟨rfl, rfl, rfl, rfl, rfl, rfl⟩, by simp⟩
    · split at h
      · simp only [reduceCtorEq, WinResult.endOfData.injEq, false_or] at h
        rw [← h.1]; exact ⟨⟨rfl, rfl, rfl, rfl, rfl, rfl⟩, by simp⟩
      · simp at h
  · split at h
    · simp at h
    · simp at h
    · simp at h
    · simp only [WinResult.ok.injEq, reduceCtorEq, or_false] at h
      rw [← h.1]; exact ⟨⟨rfl, rfl, rfl, rfl, rfl, rfl⟩, by simp⟩

theorem decodeWindow_keeps {L L' : Vcd.Level} {s r : Bytes} (hc : L.cache ≠ none)
    (h : Vcd.decodeWindow L s = .ok L' r ∨ Vcd.decodeWindow L s = .endOfData L' r) : Keeps L L' ∧ L'.cache ≠ none := by
  unfold Vcd.decodeWindow at h
  split at h
  · split at h
    · simp only [reduceCtorEq, WinResult.endOfData.injEq, false_or] at h
      rw [← h.1]; exact ⟨Keeps.refl _, hc⟩
    · simp at h
    · split at h
      · simp at h
      · obtain ⟨h1, h2⟩ := decodeWindowBody_keeps h
        exact ⟨⟨h1.table, h1.maxFile, h1.maxWin, h1.allowTarget, h1.tableString, h1.started⟩, h2⟩
  · split at h
    · simp at h
    · split at h
      · simp at h
      · exact decodeWindowBody_keeps h

/-- The members that `Reset` leaves alone, with and without pointers. -/
structure Conf (P : Level) (L : Vcd.Level) : Prop where
  table : P.window.reader.table = L.table
  maxFile : P.maxFile = L.maxFile
  maxWin : P.maxWin = L.maxWin
  allowTarget : P.allowTarget = L.allowTarget
  tableString : P.tableString = L.tableString

theorem Scal.conf {P : Level} {L : Vcd.Level} (h : Scal P L) : Conf P L := ⟨h.table, h.maxFile, h.maxWin, h.allowTarget, h.tableString⟩

theorem Conf.config {P P' : Level} {L : Vcd.Level} (h : Conf P L) (k : Config P P') : Conf P' L :=
  ⟨k.table.trans h.table, k.maxFile.trans h.maxFile, k.maxWin.trans h.maxWin, k.allowTarget.trans h.allowTarget,
    k.tableString.trans h.tableString⟩

theorem Conf.keeps {P : Level} {L L' : Vcd.Level} (h : Conf P L') (k : Keeps L L') : Conf P L :=
  ⟨h.table.trans k.table, h.maxFile.trans k.maxFile, h.maxWin.trans k.maxWin, h.allowTarget.trans k.allowTarget,
    h.tableString.trans k.tableString⟩

/-- What the loop over windows does with and without pointers. -/
def LoopsRel (P : Level) (L : Vcd.Level) (r : Except Bad (Outcome × Level × Chunk × Bytes)) : WindowsResult → Prop
  | .done L' rest out => ∃ o P' c', o ≠ .error ∧ r = .ok (o, P', c', out) ∧ Rel P' L' ∧ At P'.mem c' rest ∧ SameInput P.mem P'.mem ∧ Keeps L L'
  | .error out => ∃ P' c', r = .ok (.error, P', c', out) ∧ Tidy P'.window P'.mem ∧ Conf P' L
  | .fault f => OnlyFault f → r = .error (.fault f)

theorem LoopsRel.trans {P Q : Level} {L L' : Vcd.Level} (hs : SameInput P.mem Q.mem) (hk : Keeps L L')
    {r : Except Bad (Outcome × Level × Chunk × Bytes)} {x : WindowsResult} (h : LoopsRel Q L' r x) : LoopsRel P L r x := by
  cases x with
  | done L' rest out =>
    obtain ⟨o, P', c', h1, h2, h3, h4, h5, h6⟩ := h
    exact ⟨o, P', c', h1, h2, h3, h4, hs.trans h5, hk.trans h6⟩
  | error out => obtain ⟨P', c', h1, h2, h3⟩ := h; exact ⟨P', c', h1, h2, h3.keeps hk⟩
  | fault f => exact h

/-- `FlushDecodedTarget` is called between windows. -/
theorem flush_rel {P : Level} {L : Vcd.Level} (h : Rel P L) (hw : L.win = none) :
    Rel P.flush.1 L.flush.1 ∧ P.flush.2 = L.flush.2 ∧ SameInput P.mem P.flush.1.mem := by
  have hS := h.scal
  obtain ⟨h1, h2, h3⟩ := h.closed hw
  refine ⟨⟨⟨hS.table, hS.started, hS.dict, hS.dictSize, hS.version, hS.planned, hS.maxFile, hS.maxWin, hS.total, hS.allowTarget, rfl,
    hS.tableString, rfl, rfl, Nat.le_refl _⟩, h.cache, fun _ => ⟨h1, h2, h3.inst, h3.data, h3.addr, h3.live⟩, fun w hx => ?_⟩, ?_, ⟨rfl, rfl, rfl⟩⟩
  · have : L.win = some w := hx
    rw [hw] at this
    simp at this
  · unfold Level.flush Vcd.Level.flush
    simp only
    rw [hS.decoded, hS.outPos]

theorem decodeWindow_closed {L L' : Vcd.Level} {s r : Bytes} (h : Vcd.decodeWindow L s = .ok L' r) : L'.win = none := by
  have body : ∀ {L : Vcd.Level} {w : OpenWindow} {c : AddrCache} {s : Bytes}, Vcd.decodeWindowBody L w c s = .ok L' r → L'.win = none := by
    intro L w c s h
    unfold Vcd.decodeWindowBody at h
    simp only at h
    split at h
    · split at h
      · simp at h
      · simp at h
      · simp only [WinResult.ok.injEq] at h; rw [← h.1]
      · split at h <;> simp at h
    · split at h
      · simp at h
      · simp at h
      · simp at h
      · simp only [WinResult.ok.injEq] at h; rw [← h.1]
  unfold Vcd.decodeWindow at h
  split at h
  · split at h
    · simp at h
    · simp at h
    · split at h
      · simp at h
      · exact body h
  · split at h
    · simp at h
    · split at h
      · simp at h
      · exact body h

theorem windowLoop_rel {fuel : Nat} : ∀ {P : Level} {L : Vcd.Level} {chunk : Chunk} {s : Bytes} (out : Bytes), Rel P L → L.cache ≠ none →
    At P.mem chunk s → LoopsRel P L (P.windowLoop fuel chunk out) (Vcd.windowLoop fuel L s out) := by
  induction fuel with
  | zero =>
    intro P L chunk s out _ _ _ hf
    rcases hf with hf | hf <;> simp at hf
  | succ fuel ih =>
    intro P L chunk s out hR hc hat
    rw [Level.windowLoop, Vcd.windowLoop, hat.unparsedSize, ok_bind]
    by_cases hs : s = []
    · rw [if_pos hs, if_pos (by rw [hs]; rfl)]
      exact ⟨.ok, P, chunk, by simp, rfl, hR, hat, SameInput.rfl' _, Keeps.refl _⟩
    rw [if_neg hs, if_neg (length_ne_zero.2 hs)]
    have hd := decodeWindow_rel hR hc hat
    cases hv : Vcd.decodeWindow L s with
    | fault f =>
      rw [hv] at hd
      intro hf
      rw [hd hf]; rfl
    | error =>
      rw [hv] at hd
      obtain ⟨P', c', h1, h2, h3⟩ := hd
      rw [h1, ok_bind]
      exact ⟨P', c', rfl, h2, hR.scal.conf.config h3⟩
    | endOfData L' rest =>
      rw [hv] at hd
      obtain ⟨P', c', h1, h2, h3, h4⟩ := hd
      rw [h1, ok_bind]
      exact ⟨.endOfData, P', c', by simp, rfl, h2, h3, h4, (decodeWindow_keeps hc (Or.inr hv)).1⟩
    | ok L' rest =>
      rw [hv] at hd
      obtain ⟨P', c', h1, h2, h3, h4⟩ := hd
      obtain ⟨k1, k2⟩ := decodeWindow_keeps hc (Or.inl hv)
      rw [h1, ok_bind]
      simp only
      rw [h2.scal.reachedPlanned, h2.scal.allowTarget]
      by_cases hp : L'.reachedPlanned = true
      · rw [if_pos hp, if_pos hp]
        exact ⟨.ok, P', c', by simp, rfl, h2, h3, h4, k1⟩
      rw [if_neg hp, if_neg hp]
      by_cases ha : (!L'.allowTarget) = true
      · rw [if_pos ha, if_pos ha]
        obtain ⟨f1, f2, f3⟩ := flush_rel h2 (decodeWindow_closed hv)
        rw [f2]
        exact LoopsRel.trans (L' := L'.flush.1) (h4.trans f3) (k1.trans ⟨rfl, rfl, rfl, rfl, rfl, rfl⟩) (ih _ f1 k2 (h3.same f3))
      · rw [if_neg ha, if_neg ha]
        exact LoopsRel.trans h4 k1 (ih _ h2 k2 h3)

/-! ### Between calls -/

/-- A decoder that has been started, between calls. -/
structure Live (P : Level) (L : Vcd.Level) : Prop where
  rel : Rel P L
  unparsed : P.mem.unparsed.text = L.unparsed
  started : L.started = true

/-- A decoder that has not been started. -/
structure Idle (P : Level) (L : Vcd.Level) : Prop where
  here : P.started = false
  there : L.started = false
  conf : Conf P L
  closed : P.window.found = false
  empty : Empty P.window P.mem

theorem Idle.tidy {P : Level} {L : Vcd.Level} (h : Idle P L) : Tidy P.window P.mem := Or.inl h.empty

/-- Decoders nested in a decoder. -/
def Lives : List Level → List Vcd.Level → Prop
  | [], [] => True
  | P :: Ps, L :: Ls => Live P L ∧ Lives Ps Ls
  | _, _ => False

theorem reset_eq {P : Level} (h : Tidy P.window P.mem) :
    ∃ objects data addr, P.reset = .ok { P with
        mem := { P.mem with objects, dict := none }
        window := { inst := ⟨none, true⟩, data, addr, startPos := P.mem.decoded.text.length, reader := P.window.reader }
        started := false, dictSize := 0, version := 0, planned := none, total := 0, cache := none, outPos := 0 } ∧
      Empty { inst := ⟨none, true⟩, data, addr, startPos := P.mem.decoded.text.length, reader := P.window.reader }
        { P.mem with objects, dict := none } := by
  obtain ⟨objects, data, addr, h1, h2, h3, h4⟩ := h.reset
  refine ⟨objects, data, addr, ?_, ⟨rfl, h1, h2, h4.live⟩⟩
  unfold Level.reset
  rw [h3, ok_bind]

theorem destroy_ok {P : Level} (h : Tidy P.window P.mem) : P.destroy = .ok () := by
  obtain ⟨objects, data, addr, h1, h2⟩ := reset_eq h
  unfold Level.destroy
  rw [h1, ok_bind]
  simp only [free_none (show (⟨none, true⟩ : Section).chunk = none from rfl), free_none h2.data, free_none h2.addr, ok_bind]
  rw [if_pos]
  rw [List.all_eq_true]
  intro o ho
  cases o with
  | none => rfl
  | some c =>
    obtain ⟨k, hk, hk2⟩ := List.mem_iff_getElem.1 ho
    exact absurd ⟨c, by simp only [List.getElem?_eq_getElem hk, hk2]⟩ (h2.live k)

theorem destroyAll_ok {Ps : List Level} : ∀ {Ls : List Vcd.Level}, Lives Ps Ls → Level.destroyAll Ps = .ok () := by
  induction Ps with
  | nil => intro _ _; rfl
  | cons P Ps ih =>
    intro Ls h
    cases Ls with
    | nil => exact h.elim
    | cons L Ls =>
      unfold Level.destroyAll
      rw [ih h.2, ok_bind, destroy_ok h.1.rel.tidy]

theorem Lives.isEmpty {Ps : List Level} {Ls : List Vcd.Level} (h : Lives Ps Ls) : Ps.isEmpty = Ls.isEmpty := by
  cases Ps <;> cases Ls <;> first | rfl | exact h.elim

/-- What `DecodeChunk` does with and without pointers. -/
def ChunkRel (r : Except Bad Reply) : ChunkResult → Prop
  | .ok L nested out => ∃ R, r = .ok R ∧ R.ret = true ∧ R.out = out ∧ Live R.top L ∧ Lives R.nested nested
  | .error L out => ∃ R, r = .ok R ∧ R.ret = false ∧ R.out = out ∧ Idle R.top L ∧ R.nested = []
  | .fault f => OnlyFault f → r = .error (.fault f)

theorem failChunk_rel {P : Level} {L : Vcd.Level} (ht : Tidy P.window P.mem) (hc : Conf P L) {Ps : List Level}
    (hd : Level.destroyAll Ps = .ok ()) (out : Bytes) :
    ChunkRel (failChunk P Ps out) (.error ({ L with unparsed := [], decoded := [] } : Vcd.Level).reset out) := by
  obtain ⟨objects, data, addr, h1, h2⟩ := reset_eq ht
  unfold failChunk
  rw [hd, ok_bind, h1, ok_bind]
  exact ⟨_, rfl, rfl, rfl, ⟨rfl, rfl, ⟨hc.table, hc.maxFile, hc.maxWin, hc.allowTarget, hc.tableString⟩, rfl,
    ⟨rfl, h2.data, h2.addr, h2.live⟩⟩, rfl⟩

/-- Changes of the memory that do not matter. -/
theorem Rel.withMem {P : Level} {L : Vcd.Level} (h : Rel P L) {m : Mem} (h1 : m.dict = P.mem.dict) (h2 : m.decoded = P.mem.decoded)
    (h3 : m.objects = P.mem.objects) : Rel { P with mem := m } L := by
  have hS := h.scal
  have hl : ∀ k, m.Live k ↔ P.mem.Live k := by
    intro k
    unfold Mem.Live
    rw [h3]
  refine ⟨⟨hS.table, hS.started, h1.trans hS.dict, hS.dictSize, hS.version, hS.planned, hS.maxFile, hS.maxWin, hS.total, hS.allowTarget,
    hS.outPos, hS.tableString, (congrArg Str.text h2).trans hS.decoded, hS.startPos, hS.low⟩, h.cache, fun hw => ?_, fun w hw => ?_⟩
  · obtain ⟨a, b, c⟩ := h.closed hw
    exact ⟨a, b, c.inst, c.data, c.addr, fun k hk => c.live k ((hl k).1 hk)⟩
  · have ho := h.opened w hw
    obtain ⟨i, hi⟩ := ho.shared
    refine ⟨ho.found, ho.interleaved, ho.expected, ho.pending, ho.sourceLen, ho.targetLen, ho.checksum, ?_, ?_, i, hi.inst, hi.data, hi.addr,
      fun k => (hl k).trans (hi.live k)⟩
    · show _ ≤ m.decoded.capacity
      rw [h2]; exact ho.cap
    · exact ho.source.grow (x := []) rfl h1 (congrArg Str.version h2) ((congrArg Str.text h2).trans (List.append_nil _).symm)

theorem Rel.setOutPos {P : Level} {L : Vcd.Level} (h : Rel P L) (n : Nat) (u : Bytes) :
    Rel { P with outPos := n } { L with unparsed := u, outPos := n } := by
  have hS := h.scal
  refine ⟨⟨hS.table, hS.started, hS.dict, hS.dictSize, hS.version, hS.planned, hS.maxFile, hS.maxWin, hS.total, hS.allowTarget,
    rfl, hS.tableString, hS.decoded, hS.startPos, hS.low⟩, h.cache, h.closed, fun w hw => ?_⟩
  have ho := h.opened w hw
  exact ⟨ho.found, ho.interleaved, ho.expected, ho.pending, ho.sourceLen, ho.targetLen, ho.checksum, ho.cap, ho.source, ho.shared⟩

theorem endChunk_rel {P : Level} {L : Vcd.Level} (hR : Rel P L) (hs : L.started = true) {chunk : Chunk} {rest : Bytes}
    (hat : At P.mem chunk rest) {Ps : List Level} {Ls : List Vcd.Level} (hl : Lives Ps Ls) (out : Bytes) :
    ChunkRel (endChunk P Ps chunk out) (Vcd.endChunk L Ls rest out) := by
  unfold endChunk
  rw [hat.view, ok_bind]
  refine ⟨_, rfl, rfl, ?_, ⟨?_, rfl, hs⟩, hl⟩
  · show out ++ P.mem.decoded.text.drop P.outPos = out ++ L.decoded.drop L.outPos
    rw [hR.scal.decoded, hR.scal.outPos]
  · have := (hR.withMem (m := { P.mem with unparsed := P.mem.unparsed.assign rest, input := none }) rfl rfl rfl).setOutPos
      L.decoded.length rest
    simp only
    rw [hR.scal.decoded]
    exact this

theorem decodeChunkWindows_rel {P : Level} {L : Vcd.Level} (hR : Rel P L) (hs : L.started = true) (hc : L.cache ≠ none) {chunk : Chunk}
    {s : Bytes} (hat : At P.mem chunk s) : ChunkRel (decodeChunkWindows P chunk) (Vcd.decodeChunkWindows L s) := by
  unfold decodeChunkWindows Vcd.decodeChunkWindows
  rw [hat.unparsedSize, ok_bind]
  have hl := windowLoop_rel (fuel := s.length + 2) [] hR hc hat
  cases hv : Vcd.windowLoop (s.length + 2) L s [] with
  | fault f =>
    rw [hv] at hl
    intro hf
    rw [hl hf]; rfl
  | error out =>
    rw [hv] at hl
    obtain ⟨P', c', h1, h2, h3⟩ := hl
    rw [h1, ok_bind]
    exact failChunk_rel h2 h3 rfl out
  | done L' rest out =>
    rw [hv] at hl
    obtain ⟨o, P', c', h1, h2, h3, h4, h5, h6⟩ := hl
    rw [h2, ok_bind]
    have he := endChunk_rel h3 (h6.started.trans hs) h4 (Ps := []) (Ls := []) trivial out
    cases o with
    | error => exact absurd rfl h1
    | ok => exact he
    | endOfData => exact he

theorem Live.isComplete {P : Level} {L : Vcd.Level} (h : Live P L) (b : Bool) : P.isComplete b = L.isComplete b := by
  unfold Level.isComplete Vcd.Level.isComplete
  rw [h.rel.cache, h.unparsed, h.rel.scal.reachedPlanned]
  have : P.window.found = L.win.isSome := by
    cases hw : L.win with
    | none => exact (h.rel.closed hw).1
    | some w => exact (h.rel.opened w hw).found
  rw [this]
  rfl

theorem At.toEnd {m : Mem} {c : Chunk} {s : Bytes} (h : At m c s) : At m { c with pos := c.stop } [] := by
  have := At.move (a := s) (s := []) (by rw [List.append_nil]; exact h) (n := s.length) rfl
  have e : c.pos.add s.length = c.stop := by
    have h1 := h.stop
    have h2 := h.stopBuf
    cases hp : c.stop
    rw [hp] at h1 h2
    simp only at h1 h2
    simp only [Ptr.add, h1, h2]
  rwa [e] at this

theorem At.finish {m : Mem} {c : Chunk} {s : Bytes} (h : At m c s) {n : Nat} (hn : ¬ n > s.length) :
    ∃ c', c.finishExcept n = .ok c' ∧ At m c' (s.drop (s.length - n)) := by
  refine ⟨_, by unfold Chunk.finishExcept; rw [h.unparsedSize, ok_bind, if_neg hn], ?_⟩
  have hx : At m c (s.take (s.length - n) ++ s.drop (s.length - n)) := by
    rw [List.take_append_drop]; exact h
  have := hx.move (n := s.length - n) (by rw [List.length_take]; omega)
  have e : c.pos.add (s.length - n) = { c.stop with off := c.stop.off - n } := by
    have h1 := h.stop
    have h2 := h.stopBuf
    cases hp : c.stop
    rw [hp] at h1 h2
    simp only at h1 h2
    simp only [Ptr.add, h1, h2, Ptr.mk.injEq, true_and]
    omega
  rwa [e] at this

theorem Rel.setTable {P : Level} {L : Vcd.Level} (h : Rel P L) (str : Bytes) (t : CodeTable) :
    Rel { P with tableString := str, window := { P.window with reader := { P.window.reader with table := t } } }
      { L with tableString := str, table := t } := by
  have hS := h.scal
  refine ⟨⟨rfl, hS.started, hS.dict, hS.dictSize, hS.version, hS.planned, hS.maxFile, hS.maxWin, hS.total, hS.allowTarget,
    hS.outPos, rfl, hS.decoded, hS.startPos, hS.low⟩, h.cache, fun hw => ?_, fun w hw => ?_⟩
  · obtain ⟨a, b, c⟩ := h.closed hw
    exact ⟨a, b, c.inst, c.data, c.addr, c.live⟩
  · have ho := h.opened w hw
    obtain ⟨i, hi⟩ := ho.shared
    exact ⟨ho.found, ho.interleaved, ho.expected, ho.pending, ho.sourceLen, ho.targetLen, ho.checksum, ho.cap,
      ⟨ho.source.len, ho.source.none, ho.source.some⟩, i, hi.inst, hi.data, hi.addr, hi.live⟩

theorem Rel.setTableString {P : Level} {L : Vcd.Level} (h : Rel P L) (str : Bytes) :
    Rel { P with tableString := str } { L with tableString := str } := by
  have hS := h.scal
  refine ⟨⟨hS.table, hS.started, hS.dict, hS.dictSize, hS.version, hS.planned, hS.maxFile, hS.maxWin, hS.total, hS.allowTarget,
    hS.outPos, rfl, hS.decoded, hS.startPos, hS.low⟩, h.cache, h.closed, fun w hw => ?_⟩
  have ho := h.opened w hw
  exact ⟨ho.found, ho.interleaved, ho.expected, ho.pending, ho.sourceLen, ho.targetLen, ho.checksum, ho.cap, ho.source, ho.shared⟩

theorem afterCodeTable_rel {P : Level} {L : Vcd.Level} (hR : Rel P L) (hs : L.started = true) (hc : L.cache ≠ none) {chunk : Chunk}
    {s : Bytes} (hat : At P.mem chunk s) {R : Reply} {n : Vcd.Level} {ns : List Vcd.Level} (hret : R.ret = true) (hn : Live R.top n)
    (hns : Lives R.nested ns) : ChunkRel (afterCodeTableChunk P R chunk) (Vcd.afterCodeTableChunk L n ns s R.out) := by
  have hd : Level.destroyAll (R.top :: R.nested) = .ok () := destroyAll_ok (Ls := n :: ns) ⟨hn, hns⟩
  have hfail : ∀ str, ChunkRel (failChunk { P with tableString := str } (R.top :: R.nested) [])
      (.error ({ L with unparsed := [], decoded := [], tableString := str } : Vcd.Level).reset []) := by
    intro str
    have hS := hR.scal
    exact failChunk_rel (P := { P with tableString := str }) (L := { L with tableString := str }) hR.tidy
      ⟨hS.table, hS.maxFile, hS.maxWin, hS.allowTarget, rfl⟩ hd []
  unfold afterCodeTableChunk Vcd.afterCodeTableChunk
  rw [hret, if_neg (by simp)]
  simp only
  rw [hR.scal.tableString]
  by_cases h1 : (L.tableString ++ R.out).length < codeTableSize
  · rw [if_pos h1, if_pos h1]
    exact endChunk_rel (hR.setTableString (L.tableString ++ R.out)) hs hat.toEnd (Ps := R.top :: R.nested) (Ls := n :: ns) ⟨hn, hns⟩ []
  rw [if_neg h1, if_neg h1, hn.isComplete, hns.isEmpty]
  by_cases h2 : (!n.isComplete !ns.isEmpty) = true
  · rw [if_pos h2, if_pos h2]
    exact hfail _
  rw [if_neg h2, if_neg h2]
  by_cases h3 : (L.tableString ++ R.out).length = codeTableSize
  · rw [dif_pos h3, dif_pos h3, hn.unparsed]
    by_cases h4 : n.unparsed.length > s.length
    · rw [if_pos h4]
      intro hf
      rcases hf with hf | hf <;> simp at hf
    rw [if_neg h4]
    obtain ⟨c', e1, e2⟩ := hat.finish h4
    rw [e1, ok_bind, hd, ok_bind]
    have he : (if (CodeTable.ofBytes (L.tableString ++ R.out) h3).validate ((P.cache.map AddrCache.lastMode).getD 0) = true
        then { P.window.reader with table := CodeTable.ofBytes (L.tableString ++ R.out) h3 } else P.window.reader) =
        { P.window.reader with table := if (CodeTable.ofBytes (L.tableString ++ R.out) h3).validate ((L.cache.map AddrCache.lastMode).getD 0) = true
          then CodeTable.ofBytes (L.tableString ++ R.out) h3 else L.table } := by
      rw [hR.cache]
      split
      · rfl
      · rw [← hR.scal.table]
    rw [he]
    exact decodeChunkWindows_rel (hR.setTable [] _) hs hc e2
  · rw [dif_neg h3, dif_neg h3]
    exact hfail _

/-! ### Starting -/

theorem start_rel {P : Level} {L : Vcd.Level} (h : Idle P L) (dict : Bytes) : ∃ P', P.start dict = .ok P' ∧ Live P' (L.start dict) := by
  have ht : Tidy P.window { P.mem with unparsed := P.mem.unparsed.assign [], decoded := P.mem.decoded.assign [] } :=
    h.tidy.congr rfl rfl rfl rfl
  obtain ⟨objects, data, addr, h1, h2⟩ := reset_eq
    (P := { P with mem := { P.mem with unparsed := P.mem.unparsed.assign [], decoded := P.mem.decoded.assign [] } }) ht
  unfold Level.start Vcd.Level.start
  rw [if_neg (by rw [h.here]; simp), if_neg (by rw [h.there]; simp), h1, ok_bind]
  refine ⟨_, rfl, ⟨⟨h.conf.table, rfl, rfl, rfl, rfl, rfl, h.conf.maxFile, h.conf.maxWin, rfl, h.conf.allowTarget, rfl, h.conf.tableString,
    rfl, rfl, Nat.le_refl _⟩, rfl, fun _ => ⟨rfl, rfl, rfl, h2.data, h2.addr, h2.live⟩, fun w hw => ?_⟩, rfl, rfl⟩
  exact absurd hw (by simp [Vcd.Level.reset])

theorem Idle.new : Idle {} {} :=
  ⟨rfl, rfl, ⟨rfl, rfl, rfl, rfl, rfl⟩, rfl, ⟨rfl, rfl, rfl, fun k ⟨c, hc⟩ => by simp at hc⟩⟩

theorem forCodeTable_rel : ∃ P, Level.forCodeTable = .ok P ∧ Live P Vcd.Level.forCodeTable := by
  obtain ⟨P, h1, h2⟩ := start_rel Idle.new defaultTable.toBytes
  unfold Level.forCodeTable Vcd.Level.forCodeTable
  rw [h1, ok_bind]
  have hS := h2.rel.scal
  refine ⟨_, rfl, ⟨⟨hS.table, hS.started, hS.dict, hS.dictSize, hS.version, rfl, hS.maxFile, hS.maxWin, hS.total, hS.allowTarget,
    hS.outPos, hS.tableString, hS.decoded, hS.startPos, hS.low⟩, h2.rel.cache, h2.rel.closed, fun w hw => ?_⟩, h2.unparsed, h2.started⟩
  have ho := h2.rel.opened w hw
  exact ⟨ho.found, ho.interleaved, ho.expected, ho.pending, ho.sourceLen, ho.targetLen, ho.checksum, ho.cap, ho.source, ho.shared⟩

/-! ### `DecodeChunk` -/

theorem beginChunk_rel {P : Level} {L : Vcd.Level} (h : Live P L) (data : Bytes) :
    Rel (P.beginChunk data).1 L ∧ At (P.beginChunk data).1.mem (P.beginChunk data).2 (L.unparsed ++ data) := by
  unfold Level.beginChunk
  by_cases hu : P.mem.unparsed.text = []
  · simp only [hu, if_true]
    refine ⟨h.rel.withMem rfl rfl rfl, ?_⟩
    rw [← h.unparsed, hu, List.nil_append]
    refine ⟨trivial, rfl, rfl, Nat.le_refl _, rfl, [], [], ?_, rfl⟩
    simp only [Chunk.over, Mem.block, if_true, List.nil_append, List.append_nil]
  · simp only [hu, if_false]
    refine ⟨h.rel.withMem rfl rfl rfl, ?_⟩
    rw [← h.unparsed]
    refine ⟨trivial, rfl, rfl, Nat.le_refl _, rfl, [], [], ?_, rfl⟩
    simp only [Chunk.over, Mem.block, if_true, List.nil_append, List.append_nil, Str.assign]

theorem Rel.setHeader {P : Level} {L : Vcd.Level} (h : Rel P L) (v : UInt8) (c : AddrCache) (str : Bytes) :
    Rel { P with version := v, cache := some c, tableString := str } { L with version := v, cache := some c, tableString := str } := by
  have hS := h.scal
  refine ⟨⟨hS.table, hS.started, hS.dict, hS.dictSize, rfl, hS.planned, hS.maxFile, hS.maxWin, hS.total, hS.allowTarget,
    hS.outPos, rfl, hS.decoded, hS.startPos, hS.low⟩, rfl, h.closed, fun w hw => ?_⟩
  have ho := h.opened w hw
  exact ⟨ho.found, ho.interleaved, ho.expected, ho.pending, ho.sourceLen, ho.targetLen, ho.checksum, ho.cap, ho.source, ho.shared⟩

theorem Rel.setHeader' {P : Level} {L : Vcd.Level} (h : Rel P L) (v : UInt8) (c : AddrCache) :
    Rel { P with version := v, cache := some c } { L with version := v, cache := some c } := by
  have := h.setHeader v c L.tableString
  rw [show ({ P with version := v, cache := some c, tableString := L.tableString } : Level) = { P with version := v, cache := some c } from by
    rw [← h.scal.tableString]] at this
  exact this

/-- `ReadCustomCodeTable` and the rest of `DecodeChunk`, without pointers. -/
def readTable (fuel : Nat) (L : Vcd.Level) (nested : List Vcd.Level) (s : Bytes) : ChunkResult :=
  match nested with
  | [] => Vcd.decodeChunkWindows L s
  | n :: ns =>
    match Vcd.decodeChunkFuel fuel n ns s with
    | .fault f => .fault f
    | .error _ _ => .error ({ L with unparsed := [], decoded := [] } : Vcd.Level).reset []
    | .ok n' ns' text => Vcd.afterCodeTableChunk L n' ns' s text

theorem readTable_rel {fuel : Nat}
    (ih : ∀ {P : Level} {L : Vcd.Level} {Ps : List Level} {Ls : List Vcd.Level} (data : Bytes), Live P L → Lives Ps Ls →
      ChunkRel (decodeChunkFuel fuel P Ps data) (Vcd.decodeChunkFuel fuel L Ls data))
    {P : Level} {L : Vcd.Level} (hR : Rel P L) (hs : L.started = true) (hc : L.cache ≠ none) {Ps : List Level} {Ls : List Vcd.Level}
    (hl : Lives Ps Ls) {chunk : Chunk} {s : Bytes} (hat : At P.mem chunk s) :
    ChunkRel (readCodeTable (decodeChunkFuel fuel) P Ps chunk) (readTable fuel L Ls s) := by
  cases Ps with
  | nil =>
    cases Ls with
    | nil => exact decodeChunkWindows_rel hR hs hc hat
    | cons L Ls => exact hl.elim
  | cons n ns =>
    cases Ls with
    | nil => exact hl.elim
    | cons n' ns' =>
      have hn := ih s hl.1 hl.2
      unfold readCodeTable readTable
      simp only
      rw [hat.view, ok_bind]
      cases hv : Vcd.decodeChunkFuel fuel n' ns' s with
      | fault f =>
        rw [hv] at hn
        intro hf
        rw [hn hf]; rfl
      | error a b =>
        rw [hv] at hn
        obtain ⟨R, h1, h2, h3, h4, h5⟩ := hn
        rw [h1, ok_bind]
        unfold afterCodeTableChunk
        rw [h2, if_pos (by rfl)]
        refine failChunk_rel hR.tidy hR.scal.conf ?_ []
        unfold Level.destroyAll
        rw [h5, show Level.destroyAll [] = .ok () from rfl, ok_bind, destroy_ok h4.tidy]
      | ok a b text =>
        rw [hv] at hn
        obtain ⟨R, h1, h2, h3, h4, h5⟩ := hn
        rw [h1, ok_bind]
        simp only
        rw [← h3]
        exact afterCodeTable_rel hR hs hc hat h2 h4 h5

theorem decodeChunkFuel_rel {fuel : Nat} : ∀ {P : Level} {L : Vcd.Level} {Ps : List Level} {Ls : List Vcd.Level} (data : Bytes), Live P L →
    Lives Ps Ls → ChunkRel (decodeChunkFuel fuel P Ps data) (Vcd.decodeChunkFuel fuel L Ls data) := by
  induction fuel with
  | zero =>
    intro P L Ps Ls data _ _ hf
    rcases hf with hf | hf <;> simp at hf
  | succ fuel ih =>
    intro P L Ps Ls data h hl
    obtain ⟨hR, hat⟩ := beginChunk_rel h data
    rw [decodeChunkFuel, Vcd.decodeChunkFuel]
    rw [if_neg (by rw [h.rel.scal.started, h.started]; simp), if_neg (by rw [h.started]; simp)]
    simp only
    change ChunkRel _ (match L.cache with
      | some _ => readTable fuel L Ls (L.unparsed ++ data)
      | none =>
        match readFileHeader (L.unparsed ++ data) with
        | .error => .error ({ L with unparsed := [], decoded := [] } : Vcd.Level).reset []
        | .endOfData => Vcd.endChunk L Ls (L.unparsed ++ data) []
        | .ok hdr rest =>
          match hdr.caches with
          | none => readTable fuel { L with version := hdr.version, cache := some AddrCache.newDefault } Ls rest
          | some (near, same) => readTable fuel
              { L with version := hdr.version, cache := some (AddrCache.new near same), tableString := [] } [Vcd.Level.forCodeTable] rest)
    generalize (P.beginChunk data).1 = Q at hR hat ⊢
    generalize (P.beginChunk data).2 = chunk at hat ⊢
    generalize L.unparsed ++ data = s at hat ⊢
    rw [hR.cache]
    cases hc : L.cache with
    | some c => exact readTable_rel ih hR h.started (by rw [hc]; simp) hl hat
    | none =>
      simp only
      rw [hat.view, ok_bind]
      cases hf : readFileHeader s with
      | error => exact failChunk_rel hR.tidy hR.scal.conf (destroyAll_ok hl) []
      | endOfData => exact endChunk_rel hR h.started hat hl []
      | ok hdr rest =>
        simp only
        obtain ⟨pre, hp, _⟩ := Local.readFileHeader.ok hf
        subst hp
        rw [hat.advance (n := (pre ++ rest).length - rest.length) (by simp), ok_bind]
        have hat' := hat.move (n := (pre ++ rest).length - rest.length) (by simp)
        cases hh : hdr.caches with
        | none =>
          exact readTable_rel ih (hR.setHeader' hdr.version AddrCache.newDefault) h.started (by simp) hl hat'
        | some ns =>
          obtain ⟨N, n1, n2⟩ := forCodeTable_rel
          simp only
          rw [destroyAll_ok hl, ok_bind, n1, ok_bind]
          exact readTable_rel ih (hR.setHeader hdr.version (AddrCache.new ns.1 ns.2) []) h.started (by simp)
            (Ps := [N]) (Ls := [Vcd.Level.forCodeTable]) ⟨n2, trivial⟩ hat'

/-! ### API -/

/-- A decoder with and without pointers, between calls. -/
def DecRel (d : Decoder) (D : Vcd.Decoder) : Prop :=
  (Idle d.top D.top ∧ d.nested = [] ∧ D.nested = []) ∨ (Live d.top D.top ∧ Lives d.nested D.nested)

theorem depthBound_eq {d : Decoder} {D : Vcd.Decoder} (h1 : Live d.top D.top) (h2 : Lives d.nested D.nested) (data : Bytes) :
    d.depthBound data = D.depthBound data := by
  have key : ∀ {Ps : List Level} {Ls : List Vcd.Level}, Lives Ps Ls →
      (Ps.map fun P => P.mem.unparsed.text.length + 1) = Ls.map fun L => L.unparsed.length + 1 := by
    intro Ps
    induction Ps with
    | nil => intro Ls h; cases Ls with
      | nil => rfl
      | cons => exact h.elim
    | cons P Ps ih => intro Ls h; cases Ls with
      | nil => exact h.elim
      | cons L Ls => rw [List.map_cons, List.map_cons, ih h.2, h.1.unparsed]
  unfold Decoder.depthBound Vcd.Decoder.depthBound
  rw [key (Ps := d.top :: d.nested) (Ls := D.top :: D.nested) ⟨h1, h2⟩]

theorem Live.reset {P : Level} {L : Vcd.Level} (h : Live P L) : ∃ P', P.reset = .ok P' ∧ Idle P' L.reset := by
  obtain ⟨objects, data, addr, h1, h2⟩ := reset_eq h.rel.tidy
  have hS := h.rel.scal
  exact ⟨_, h1, rfl, rfl, ⟨hS.table, hS.maxFile, hS.maxWin, hS.allowTarget, hS.tableString⟩, rfl, h2⟩

theorem Idle.reset {P : Level} {L : Vcd.Level} (h : Idle P L) : ∃ P', P.reset = .ok P' ∧ Idle P' L.reset := by
  obtain ⟨objects, data, addr, h1, h2⟩ := reset_eq h.tidy
  exact ⟨_, h1, rfl, rfl, ⟨h.conf.table, h.conf.maxFile, h.conf.maxWin, h.conf.allowTarget, h.conf.tableString⟩, rfl, h2⟩

/-- What a call does with and without pointers. -/
def CallRel (r : Except Bad (DecoderReply × Decoder)) : Except Fault (DecoderReply × Vcd.Decoder) → Prop
  | .ok (reply, D) => ∃ d, r = .ok (reply, d) ∧ DecRel d D
  | .error f => OnlyFault f → r = .error (.fault f)

theorem call_rel {d : Decoder} {D : Vcd.Decoder} (h : DecRel d D) (c : DecoderCall) : CallRel (d.call c) (D.call c) := by
  cases c with
  | start dict =>
    unfold Decoder.call Vcd.Decoder.call Vcd.Decoder.start
    rcases h with ⟨h1, h2, h3⟩ | ⟨h1, h2⟩
    · simp only [h1.here, h1.there, Bool.false_eq_true, if_false]
      obtain ⟨P', e1, e2⟩ := start_rel h1 dict
      rw [e1, ok_bind, h2]
      exact ⟨_, rfl, Or.inr ⟨e2, trivial⟩⟩
    · simp only [h1.rel.scal.started, h1.started, if_true]
      exact ⟨_, rfl, Or.inr ⟨h1, h2⟩⟩
  | chunk data =>
    unfold Decoder.call Vcd.Decoder.call Vcd.Decoder.decodeChunk
    rcases h with ⟨h1, h2, h3⟩ | ⟨h1, h2⟩
    · obtain ⟨P', e1, e2⟩ := h1.reset
      obtain ⟨n, hn⟩ : ∃ n, d.depthBound data = n + 1 := ⟨_, rfl⟩
      obtain ⟨n', hn'⟩ : ∃ n, D.depthBound data = n + 1 := ⟨_, rfl⟩
      simp only
      rw [hn, hn', decodeChunkFuel, Vcd.decodeChunkFuel, h1.here, h1.there, if_pos (by rfl), if_pos (by rfl), h2,
        show Level.destroyAll [] = .ok () from rfl, ok_bind, e1, ok_bind]
      exact ⟨_, rfl, Or.inl ⟨e2, rfl, rfl⟩⟩
    · have hc := decodeChunkFuel_rel (fuel := D.depthBound data) data h1 h2
      simp only
      rw [depthBound_eq h1 h2]
      cases hv : Vcd.decodeChunkFuel (D.depthBound data) D.top D.nested data with
      | ok L ns out =>
        rw [hv] at hc
        obtain ⟨R, k1, k2, k3, k4, k5⟩ := hc
        rw [k1, ok_bind, k2, k3]
        exact ⟨_, rfl, Or.inr ⟨k4, k5⟩⟩
      | error L out =>
        rw [hv] at hc
        obtain ⟨R, k1, k2, k3, k4, k5⟩ := hc
        rw [k1, ok_bind, k2, k3]
        exact ⟨_, rfl, Or.inl ⟨k4, k5, rfl⟩⟩
      | fault f =>
        rw [hv] at hc
        intro hf
        rw [hc hf]; rfl
  | finish =>
    unfold Decoder.call Vcd.Decoder.call Vcd.Decoder.finish
    rcases h with ⟨h1, h2, h3⟩ | ⟨h1, h2⟩
    · obtain ⟨P', e1, e2⟩ := h1.reset
      simp only
      rw [h2, show Level.destroyAll [] = .ok () from rfl, ok_bind, e1, ok_bind, h1.here, h1.there]
      exact ⟨_, rfl, Or.inl ⟨e2, rfl, rfl⟩⟩
    · obtain ⟨P', e1, e2⟩ := h1.reset
      simp only
      rw [destroyAll_ok h2, ok_bind, e1, ok_bind, h1.rel.scal.started, h1.isComplete, h2.isEmpty]
      exact ⟨_, rfl, Or.inl ⟨e2, rfl, rfl⟩⟩
  | setMaxFile n =>
    unfold Decoder.call Vcd.Decoder.call Vcd.Decoder.setMaxFile
    refine ⟨_, rfl, ?_⟩
    rcases h with ⟨h1, h2, h3⟩ | ⟨h1, h2⟩
    · exact Or.inl ⟨⟨h1.here, h1.there, ⟨h1.conf.table, rfl, h1.conf.maxWin, h1.conf.allowTarget, h1.conf.tableString⟩, h1.closed, h1.empty⟩, h2, h3⟩
    · have hS := h1.rel.scal
      refine Or.inr ⟨⟨⟨⟨hS.table, hS.started, hS.dict, hS.dictSize, hS.version, hS.planned, rfl, hS.maxWin, hS.total, hS.allowTarget,
        hS.outPos, hS.tableString, hS.decoded, hS.startPos, hS.low⟩, h1.rel.cache, h1.rel.closed, fun w hw => ?_⟩, h1.unparsed, h1.started⟩, h2⟩
      have ho := h1.rel.opened w hw
      exact ⟨ho.found, ho.interleaved, ho.expected, ho.pending, ho.sourceLen, ho.targetLen, ho.checksum, ho.cap, ho.source, ho.shared⟩
  | setMaxWin n =>
    unfold Decoder.call Vcd.Decoder.call Vcd.Decoder.setMaxWin
    simp only
    by_cases hn : n > targetSizeLimit
    · rw [if_pos hn, if_pos hn]
      exact ⟨_, rfl, h⟩
    rw [if_neg hn, if_neg hn]
    refine ⟨_, rfl, ?_⟩
    rcases h with ⟨h1, h2, h3⟩ | ⟨h1, h2⟩
    · exact Or.inl ⟨⟨h1.here, h1.there, ⟨h1.conf.table, h1.conf.maxFile, rfl, h1.conf.allowTarget, h1.conf.tableString⟩, h1.closed, h1.empty⟩, h2, h3⟩
    · have hS := h1.rel.scal
      refine Or.inr ⟨⟨⟨⟨hS.table, hS.started, hS.dict, hS.dictSize, hS.version, hS.planned, hS.maxFile, rfl, hS.total, hS.allowTarget,
        hS.outPos, hS.tableString, hS.decoded, hS.startPos, hS.low⟩, h1.rel.cache, h1.rel.closed, fun w hw => ?_⟩, h1.unparsed, h1.started⟩, h2⟩
      have ho := h1.rel.opened w hw
      exact ⟨ho.found, ho.interleaved, ho.expected, ho.pending, ho.sourceLen, ho.targetLen, ho.checksum, ho.cap, ho.source, ho.shared⟩
  | setAllowTarget b =>
    unfold Decoder.call Vcd.Decoder.call Vcd.Decoder.setAllowTarget
    simp only
    rcases h with ⟨h1, h2, h3⟩ | ⟨h1, h2⟩
    · rw [if_neg (by rw [h1.here]; simp), if_neg (by rw [h1.there]; simp)]
      exact ⟨_, rfl, Or.inl ⟨⟨h1.here, h1.there, ⟨h1.conf.table, h1.conf.maxFile, h1.conf.maxWin, rfl, h1.conf.tableString⟩, h1.closed, h1.empty⟩, h2, h3⟩⟩
    · rw [h1.rel.scal.started, h1.started, if_pos rfl, if_pos rfl]
      exact ⟨_, rfl, Or.inr ⟨h1, h2⟩⟩

theorem DecRel.tidy {d : Decoder} {D : Vcd.Decoder} (h : DecRel d D) : Level.destroyAll (d.top :: d.nested) = .ok () := by
  rcases h with ⟨h1, h2, _⟩ | ⟨h1, h2⟩
  · unfold Level.destroyAll
    rw [h2, show Level.destroyAll [] = .ok () from rfl, ok_bind, destroy_ok h1.tidy]
  · exact destroyAll_ok (Ls := D.top :: D.nested) ⟨h1, h2⟩

/-- What calls do with and without pointers. -/
def CallsRel (r : Except Bad (List DecoderReply × Decoder)) : Except Fault (List DecoderReply × Vcd.Decoder) → Prop
  | .ok (replies, D) => ∃ d, r = .ok (replies, d) ∧ DecRel d D
  | .error f => OnlyFault f → r = .error (.fault f)

theorem calls_rel {cs : List DecoderCall} : ∀ {d : Decoder} {D : Vcd.Decoder}, DecRel d D → CallsRel (d.calls cs) (D.calls cs) := by
  induction cs with
  | nil => intro d D h; exact ⟨d, rfl, h⟩
  | cons c cs ih =>
    intro d D h
    have hc := call_rel h c
    unfold Decoder.calls Vcd.Decoder.calls
    cases hv : D.call c with
    | error f =>
      rw [hv] at hc
      intro hf
      rw [hc hf]; rfl
    | ok x =>
      obtain ⟨r, D'⟩ := x
      rw [hv] at hc
      obtain ⟨d', e1, e2⟩ := hc
      rw [e1, ok_bind]
      simp only
      have hi := ih e2
      cases hw : D'.calls cs with
      | error f =>
        rw [hw] at hi
        intro hf
        rw [hi hf]; rfl
      | ok x =>
        obtain ⟨rs, D''⟩ := x
        rw [hw] at hi
        obtain ⟨d'', k1, k2⟩ := hi
        rw [k1, ok_bind]
        exact ⟨d'', rfl, k2⟩

/-! ### Counting objects -/

theorem filter_of_dead {α : Type} {l : List (Option α)} (h : ∀ (k : Nat) (c : α), l[k]? ≠ some (some c)) : l.filter Option.isSome = [] := by
  rw [List.filter_eq_nil_iff]
  intro o ho
  obtain ⟨k, hk, hk2⟩ := List.mem_iff_getElem.1 ho
  cases o with
  | none => simp
  | some c => exact absurd (by rw [List.getElem?_eq_getElem hk, hk2]) (h k c)

theorem filter_of_one {α : Type} {l : List (Option α)} {i : Nat} (h : ∀ k : Nat, (∃ c, l[k]? = some (some c)) ↔ k = i) :
    (l.filter Option.isSome).length = 1 := by
  obtain ⟨c, hc⟩ := (h i).2 rfl
  obtain ⟨hi, hc2⟩ := List.getElem?_eq_some_iff.1 hc
  have e : l = l.take i ++ some c :: l.drop (i + 1) := by
    rw [← hc2, List.getElem_cons_drop, List.take_append_drop]
  have h1 : (l.take i).filter Option.isSome = [] := by
    apply filter_of_dead
    intro k c' hk
    rw [List.getElem?_take] at hk
    split at hk
    · rename_i hlt
      have := (h k).1 ⟨c', hk⟩
      omega
    · simp at hk
  have h2 : (l.drop (i + 1)).filter Option.isSome = [] := by
    apply filter_of_dead
    intro k c' hk
    rw [List.getElem?_drop] at hk
    have := (h _).1 ⟨c', hk⟩
    omega
  rw [e, List.filter_append, List.filter_cons, if_pos (by rfl), h1, h2]
  rfl

theorem DecRel.new : DecRel {} {} := Or.inl ⟨Idle.new, rfl, rfl⟩

end Vcd.Lifetime
