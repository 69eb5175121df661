import Verif.Proof.LifetimeBody

/-!
# The decoder with its pointers does what the decoder without them does: windows
-/

namespace Vcd.Lifetime
open Spec

/-! ### The end of `DecodeBody` -/

/-- What `DecodeBody` does when everything is as it should be. -/
def Level.ending (P : Level) (chunk : Chunk) : Except Bad (Outcome × Level × Chunk) :=
  if P.isInterleaved then do
    let (P, chunk) ← P.updateInstructionPointer chunk
    .ok (.ok, P, chunk)
  else do
    let addr ← P.mem.get P.window.addr.chunk
    let chunk ← chunk.setPosition addr.stop
    .ok (.ok, P, chunk)

/-- What `DecodeBody` does with and without pointers. -/
def EndRel (P : Level) (env : BodyEnv) (chunk : Chunk) (r : Except Bad (Outcome × Level × Chunk)) : BodyResult → Prop
  | .ok b => ∃ P', r = P'.ending chunk ∧ Frame P P' ∧ BodyRel P' env b
  | .endOfData b => ∃ P', r = P'.stopBody chunk ∧ Frame P P' ∧ BodyRel P' env b
  | .error => ∃ P', r = .ok (.error, P', chunk) ∧ Frame P P'
  | .fault f => OnlyFault f → r = .error (.fault f)

theorem BodyRel.tbd {P : Level} {env : BodyEnv} {b : Body} (h : BodyRel P env b) :
    P.targetBytesDecoded = Vcd.Level.targetBytesDecoded env.startPos b.decoded := by
  unfold Level.targetBytesDecoded Vcd.Level.targetBytesDecoded
  rw [h.decoded, h.room.start]

theorem length_ne_zero {s : Bytes} : s.length ≠ 0 ↔ s ≠ [] := by
  cases s <;> simp

theorem finishBody_rel {P : Level} {env : BodyEnv} {b : Body} (h : BodyRel P env b) (chunk : Chunk) :
    EndRel P env chunk (P.finishBody chunk)
      (if Vcd.Level.targetBytesDecoded env.startPos b.decoded ≠ env.hdr.targetLen then .error
      else if (env.hdr.checksum.any fun c => computeAdler32 ((b.decoded.drop env.startPos).take env.hdr.targetLen) != c) = true then .error
      else if b.inst ≠ [] then .error
      else if env.hdr.interleaved = true then .ok b
      else if b.data ≠ [] then .error
      else if b.addr ≠ [] then .error
      else .ok b) := by
  have herr : EndRel P env chunk (.ok (.error, P, chunk)) .error := ⟨P, rfl, Frame.refl P⟩
  unfold Level.finishBody
  rw [h.tbd, h.targetLen]
  by_cases h1 : Vcd.Level.targetBytesDecoded env.startPos b.decoded ≠ env.hdr.targetLen
  · rw [if_pos h1, if_pos h1]; exact herr
  rw [if_neg h1, if_neg h1]
  have h1' : b.decoded.length - env.startPos = env.hdr.targetLen := by
    have := Decidable.not_not.1 h1
    rwa [Vcd.Level.targetBytesDecoded, szSub_eq h.low] at this
  have hread : P.mem.read P.targetSegment env.hdr.targetLen = .ok ((b.decoded.drop env.startPos).take env.hdr.targetLen) := by
    have := read_target (m := P.mem) (a := 0) (n := env.hdr.targetLen) (start := env.startPos)
      (bytes := (b.decoded.drop env.startPos).take env.hdr.targetLen) (by
        rw [h.decoded, Nat.add_zero]
        unfold readRange
        have := h.low
        rw [if_neg (by omega)])
    rw [add_zero] at this
    unfold Level.targetSegment
    rw [h.room.start]
    exact this
  have hck : P.checksumWrong =
      .ok (env.hdr.checksum.any fun c => computeAdler32 ((b.decoded.drop env.startPos).take env.hdr.targetLen) != c) := by
    unfold Level.checksumWrong
    rw [h.targetLen]
    rw [h.checksum]
    cases env.hdr.checksum with
    | none => rfl
    | some c => simp only [hread, ok_bind]; rfl
  rw [hck, ok_bind]
  by_cases h2 : (env.hdr.checksum.any fun c => computeAdler32 ((b.decoded.drop env.startPos).take env.hdr.targetLen) != c) = true
  · rw [if_pos h2, if_pos h2]; exact herr
  rw [if_neg h2, if_neg h2]
  obtain ⟨i, ci, i1, i2, i3, _, _⟩ := h.secs.inst
  rw [i1, get_live i2, ok_bind, i3.unparsedSize, ok_bind]
  by_cases h3 : b.inst ≠ []
  · rw [if_pos (length_ne_zero.2 h3), if_pos h3]; exact herr
  rw [if_neg (fun x => h3 (length_ne_zero.1 x)), if_neg h3, h.secs.interleaved]
  by_cases h4 : env.hdr.interleaved = true
  · rw [if_pos h4, if_pos h4]
    refine ⟨P, ?_, Frame.refl P, h⟩
    unfold Level.ending
    rw [h.secs.interleaved, if_pos h4]
  rw [if_neg h4, if_neg h4]
  have h4' : env.hdr.interleaved = false := by simpa using h4
  obtain ⟨j, cj, j1, j2, j3, _⟩ := h.secs.data
  obtain ⟨k, ck, k1, k2, k3, _⟩ := h.secs.addr
  rw [h4', if_neg (by simp)] at j3 k3
  rw [j1, get_live j2, ok_bind, j3.unparsedSize, ok_bind]
  by_cases h5 : b.data ≠ []
  · rw [if_pos (length_ne_zero.2 h5), if_pos h5]; exact herr
  rw [if_neg (fun x => h5 (length_ne_zero.1 x)), if_neg h5, k1, get_live k2, ok_bind, k3.unparsedSize, ok_bind]
  by_cases h6 : b.addr ≠ []
  · rw [if_pos (length_ne_zero.2 h6), if_pos h6]; exact herr
  rw [if_neg (fun x => h6 (length_ne_zero.1 x)), if_neg h6]
  refine ⟨P, ?_, Frame.refl P, h⟩
  unfold Level.ending
  rw [h.secs.interleaved, if_neg h4, k1, get_live k2, ok_bind]

theorem EndRel.trans {P Q : Level} {env : BodyEnv} {chunk : Chunk} {r : Except Bad (Outcome × Level × Chunk)} {x : BodyResult}
    (hf : Frame P Q) (h : EndRel Q env chunk r x) : EndRel P env chunk r x := by
  cases x with
  | ok b => obtain ⟨P', h1, h2, h3⟩ := h; exact ⟨P', h1, hf.trans h2, h3⟩
  | endOfData b => obtain ⟨P', h1, h2, h3⟩ := h; exact ⟨P', h1, hf.trans h2, h3⟩
  | error => obtain ⟨P', h1, h2⟩ := h; exact ⟨P', h1, hf.trans h2⟩
  | fault f => exact h

/-- The end of data. -/
theorem stopBody_shape (P : Level) (chunk : Chunk) :
    (∃ e, P.stopBody chunk = .error e) ∨ ∃ P' c', P.stopBody chunk = .ok (.endOfData, P', c') := by
  unfold Level.stopBody
  cases P.updateInstructionPointer chunk with
  | error e => exact Or.inl ⟨e, rfl⟩
  | ok x => exact Or.inr ⟨x.1, x.2, rfl⟩

theorem decodeBody_rel {P : Level} {env : BodyEnv} {b : Body} (h : BodyRel P env b) {chunk : Chunk}
    (hc : env.hdr.interleaved = true → ∀ i c, P.window.inst.chunk = some i → P.mem.objects[i]? = some (some c) → c.pos = chunk.pos) :
    EndRel P env chunk (P.decodeBody chunk) (Vcd.decodeBody env b) := by
  unfold Level.decodeBody Vcd.decodeBody
  obtain ⟨i, ci, i1, i2, i3, _, _⟩ := h.secs.inst
  rw [i1, get_live i2, ok_bind, h.secs.interleaved]
  have hn : ¬ (env.hdr.interleaved && ci.pos != chunk.pos) = true := by
    cases hi : env.hdr.interleaved with
    | false => simp
    | true => simp [hc hi i ci i1 i2]
  rw [if_neg hn, i3.unparsedSize, ok_bind]
  have hl := bodyLoop_rel (chunk := chunk) (fuel := 2 * b.inst.length + 2) h
  cases hb : Vcd.bodyLoop env (2 * b.inst.length + 2) b with
  | ok b' =>
    rw [hb] at hl
    obtain ⟨P', l1, l2, l3⟩ := hl
    rw [l1, ok_bind]
    exact (finishBody_rel l3 chunk).trans l2
  | endOfData b' =>
    rw [hb] at hl
    obtain ⟨P', l1, l2, l3⟩ := hl
    refine ⟨P', ?_, l2, l3⟩
    rw [l1]
    rcases stopBody_shape P' chunk with ⟨e, he⟩ | ⟨P2, c2, he⟩
    · rw [he]; rfl
    · rw [he]; rfl
  | error =>
    rw [hb] at hl
    obtain ⟨P', l1, l2⟩ := hl
    exact ⟨P', by rw [l1]; rfl, l2⟩
  | fault f =>
    rw [hb] at hl
    intro hf
    rw [hl hf]; rfl

/-! ### Decoders -/

/-- The members of a decoder with and without pointers, except the open window and the address cache. -/
structure Scal (P : Level) (L : Vcd.Level) : Prop where
  table : P.window.reader.table = L.table
  started : P.started = L.started
  dict : P.mem.dict = some L.dict
  dictSize : P.dictSize = L.dict.length
  version : P.version = L.version
  planned : P.planned = L.planned
  maxFile : P.maxFile = L.maxFile
  maxWin : P.maxWin = L.maxWin
  total : P.total = L.total
  allowTarget : P.allowTarget = L.allowTarget
  outPos : P.outPos = L.outPos
  tableString : P.tableString = L.tableString
  decoded : P.mem.decoded.text = L.decoded
  startPos : P.window.startPos = L.startPos
  low : L.startPos ≤ L.decoded.length

/-- An open window with and without pointers. -/
structure Opened (P : Level) (L : Vcd.Level) (w : OpenWindow) : Prop where
  found : P.window.found = true
  interleaved : w.hdr.interleaved = true
  expected : P.window.expected = w.expected
  pending : P.window.reader.pending = w.pending
  sourceLen : P.window.sourceLen = w.hdr.srcLen
  targetLen : P.window.targetLen = w.hdr.targetLen
  checksum : P.window.checksum = w.hdr.checksum
  cap : L.startPos + w.hdr.targetLen ≤ P.mem.decoded.capacity
  source : SourceRel P.window P.mem w.hdr
  shared : ∃ i, Shared P.window P.mem i

/-- A started decoder with and without pointers. -/
structure Rel (P : Level) (L : Vcd.Level) : Prop where
  scal : Scal P L
  cache : P.cache = L.cache
  closed : L.win = none → P.window.found = false ∧ P.window.source = none ∧ Empty P.window P.mem
  opened : ∀ w, L.win = some w → Opened P L w

/-- The members that `Reset` leaves alone. -/
structure Config (P P' : Level) : Prop where
  table : P'.window.reader.table = P.window.reader.table
  maxFile : P'.maxFile = P.maxFile
  maxWin : P'.maxWin = P.maxWin
  allowTarget : P'.allowTarget = P.allowTarget
  tableString : P'.tableString = P.tableString

theorem Config.refl (P : Level) : Config P P := ⟨rfl, rfl, rfl, rfl, rfl⟩

theorem Config.trans {A B C : Level} (h : Config A B) (k : Config B C) : Config A C :=
  ⟨k.table.trans h.table, k.maxFile.trans h.maxFile, k.maxWin.trans h.maxWin, k.allowTarget.trans h.allowTarget,
    k.tableString.trans h.tableString⟩

theorem Frame.config {P P' : Level} (h : Frame P P') : Config P P' :=
  ⟨congrArg (·.window.reader.table) h.1, congrArg (·.maxFile) h.1, congrArg (·.maxWin) h.1, congrArg (·.allowTarget) h.1,
    congrArg (·.tableString) h.1⟩

theorem Frame.tidy {P P' : Level} (h : Frame P P') (ht : Tidy P.window P.mem) : Tidy P'.window P'.mem :=
  ht.congr (congrArg (·.window.inst) h.1) (congrArg (·.window.data) h.1) (congrArg (·.window.addr) h.1) h.2

theorem Scal.frame {P P' : Level} {L : Vcd.Level} (h : Scal P L) (hf : Frame P P') {d : Bytes} (hd : P'.mem.decoded.text = d)
    (hl : L.startPos ≤ d.length) (c : Option AddrCache) (w : Option OpenWindow) : Scal P' { L with decoded := d, cache := c, win := w } :=
  have e := hf.1
  ⟨(congrArg (·.window.reader.table) e).trans h.table, (congrArg (·.started) e).trans h.started, (congrArg (·.mem.dict) e).trans h.dict,
    (congrArg (·.dictSize) e).trans h.dictSize, (congrArg (·.version) e).trans h.version, (congrArg (·.planned) e).trans h.planned,
    (congrArg (·.maxFile) e).trans h.maxFile, (congrArg (·.maxWin) e).trans h.maxWin, (congrArg (·.total) e).trans h.total,
    (congrArg (·.allowTarget) e).trans h.allowTarget, (congrArg (·.outPos) e).trans h.outPos, (congrArg (·.tableString) e).trans h.tableString,
    hd, (congrArg (·.window.startPos) e).trans h.startPos, hl⟩

/-- What `DecodeWindow` does with and without pointers. -/
def WinRel (P : Level) (r : Except Bad (Outcome × Level × Chunk)) : WinResult → Prop
  | .ok L rest => ∃ P' c', r = .ok (.ok, P', c') ∧ Rel P' L ∧ At P'.mem c' rest ∧ SameInput P.mem P'.mem
  | .endOfData L rest => ∃ P' c', r = .ok (.endOfData, P', c') ∧ Rel P' L ∧ At P'.mem c' rest ∧ SameInput P.mem P'.mem
  | .error => ∃ P' c', r = .ok (.error, P', c') ∧ Tidy P'.window P'.mem ∧ Config P P'
  | .fault f => OnlyFault f → r = .error (.fault f)

/-- The end of a window. -/
theorem reset_rel {P : Level} {L : Vcd.Level} (hs : Scal P L) (ht : Tidy P.window P.mem) :
    ∃ m w, P.window.reset P.mem = .ok (m, w) ∧ Scal { P with mem := m, window := w } { L with startPos := L.decoded.length } ∧
      (w.found = false ∧ w.source = none ∧ Empty w m) ∧ SameInput P.mem m := by
  obtain ⟨objects, data, addr, h1, h2, h3, h4⟩ := ht.reset
  refine ⟨_, _, h3, ?_, ⟨rfl, rfl, h4⟩, ⟨rfl, rfl, rfl⟩⟩
  exact ⟨hs.table, hs.started, hs.dict, hs.dictSize, hs.version, hs.planned, hs.maxFile, hs.maxWin, hs.total, hs.allowTarget, hs.outPos,
    hs.tableString, hs.decoded, by rw [← hs.decoded], Nat.le_refl _⟩

/-- `UpdateInstructionPointer` in the interleaved format. -/
theorem update_eq {P P' : Level} {env : BodyEnv} {b b' : Body} {s : Bytes} {chunk : Chunk} (hi : env.hdr.interleaved = true)
    (h : BodyRel P env b) (hf : Frame P P') (h' : BodyRel P' env b') (hat : At P.mem chunk s) {tail : Bytes} (hs : s = b.inst ++ tail)
    (hc : ∀ i c, P.window.inst.chunk = some i → P.mem.objects[i]? = some (some c) → c.pos = chunk.pos ∧ c.start = chunk.pos) :
    P'.updateInstructionPointer chunk = .ok ({ P' with window := { P'.window with
        expected := P'.window.expected - ((b.inst.length - b'.inst.length : Nat) : Int) } },
      { chunk with pos := chunk.pos.add (b.inst.length - b'.inst.length) }) ∧
    At P'.mem { chunk with pos := chunk.pos.add (b.inst.length - b'.inst.length) } (s.drop (b.inst.length - b'.inst.length)) := by
  obtain ⟨i, c, i1, i2, i3, _, _⟩ := h.secs.inst
  obtain ⟨i', c', j1, j2, j3, _, _⟩ := h'.secs.inst
  have ei : P'.window.inst = P.window.inst := congrArg (·.window.inst) hf.1
  have : i' = i := by
    rw [ei, i1] at j1
    exact (Option.some.inj j1).symm
  subst this
  obtain ⟨c1, c2⟩ := hc i' c i1 i2
  have he : c'.ends = c.ends := by
    have := congrArg (fun l => l[i']?) hf.2
    simp only [Mem.shape, List.getElem?_map, i2, j2] at this
    simpa using this
  have e1 : c'.start = c.start := congrArg Prod.fst he
  have e2 : c'.stop = c.stop := congrArg Prod.snd he
  have a1 := i3.stop
  have a2 := j3.stop
  have a3 := j3.low
  rw [e2] at a2
  rw [e1, c2] at a3
  rw [c1] at a1
  have hlen : c'.pos.off - c'.start.off = b.inst.length - b'.inst.length := by
    rw [e1, c2]; omega
  have hat' : At P'.mem chunk (s.take (b.inst.length - b'.inst.length) ++ s.drop (b.inst.length - b'.inst.length)) := by
    rw [List.take_append_drop]
    exact hat.same hf.same
  have hn : b.inst.length - b'.inst.length = (s.take (b.inst.length - b'.inst.length)).length := by
    rw [List.length_take, hs, List.length_append]; omega
  refine ⟨?_, hat'.move hn⟩
  unfold Level.updateInstructionPointer
  rw [h'.secs.interleaved, if_pos hi, j1, get_live j2, ok_bind, j3.parsedSize, ok_bind, hlen, hat'.advance hn, ok_bind]

theorem Scal.setExpected {P : Level} {L : Vcd.Level} (h : Scal P L) (e : Int) :
    Scal { P with window := { P.window with expected := e } } L :=
  ⟨h.table, h.started, h.dict, h.dictSize, h.version, h.planned, h.maxFile, h.maxWin, h.total, h.allowTarget, h.outPos, h.tableString,
    h.decoded, h.startPos, h.low⟩

/-- The body of an interleaved window. -/
theorem bodyInterleaved_rel {P : Level} {L : Vcd.Level} {w : OpenWindow} {cache : AddrCache} {s : Bytes} {chunk : Chunk} (hS : Scal P L)
    (hi : w.hdr.interleaved = true) (hexp : P.window.expected = w.expected) (hfound : P.window.found = true)
    (hb : BodyRel P (L.env w.hdr) { pending := w.pending, inst := s.take w.expected, data := [], addr := [], cache := cache, decoded := L.decoded })
    (hat : At P.mem chunk s)
    (hc : ∀ i c, P.window.inst.chunk = some i → P.mem.objects[i]? = some (some c) → c.pos = chunk.pos ∧ c.start = chunk.pos) :
    WinRel P (P.decodeWindowBody chunk) (Vcd.decodeWindowBody L w cache s) := by
  unfold Level.decodeWindowBody Vcd.decodeWindowBody
  rw [if_pos hi]
  simp only
  have hd := decodeBody_rel hb (chunk := chunk) (fun _ i c h1 h2 => (hc i c h1 h2).1)
  change EndRel P (L.env w.hdr) chunk _ (Vcd.decodeBody { table := L.table, hdr := w.hdr, startPos := L.startPos } _) at hd
  cases hdb : Vcd.decodeBody { table := L.table, hdr := w.hdr, startPos := L.startPos }
      { pending := w.pending, inst := s.take w.expected, data := [], addr := [], cache := cache, decoded := L.decoded } with
  | fault f =>
    rw [hdb] at hd
    intro hf
    rw [hd hf]; rfl
  | error =>
    rw [hdb] at hd
    obtain ⟨P', e, hf⟩ := hd
    rw [e, ok_bind]
    exact ⟨P', chunk, rfl, hf.tidy hb.secs.tidy, hf.config⟩
  | ok b' =>
    rw [hdb] at hd
    obtain ⟨P', e, hf, hb'⟩ := hd
    obtain ⟨u1, u2⟩ := update_eq (s := s) hi hb hf hb' hat (tail := s.drop w.expected) (List.take_append_drop _ _).symm hc
    unfold Level.ending at e
    rw [hb'.secs.interleaved, if_pos (by exact hi), u1, ok_bind] at e
    rw [e, ok_bind]
    simp only at u2 ⊢
    have hS' := (hS.frame hf hb'.decoded hb'.low (some b'.cache) none).setExpected
      (P'.window.expected - (((s.take w.expected).length - b'.inst.length : Nat) : Int))
    obtain ⟨m, w', r1, r2, r3, r4⟩ := reset_rel hS' (hb'.secs.tidy.congr rfl rfl rfl rfl)
    rw [r1, ok_bind]
    refine ⟨_, _, rfl, ⟨r2, hb'.cache, fun _ => r3, fun w hw => by simp at hw⟩, u2.same r4, hf.same.trans r4⟩
  | endOfData b' =>
    rw [hdb] at hd
    obtain ⟨P', e, hf, hb'⟩ := hd
    obtain ⟨u1, u2⟩ := update_eq (s := s) hi hb hf hb' hat (tail := s.drop w.expected) (List.take_append_drop _ _).symm hc
    unfold Level.stopBody at e
    rw [u1, ok_bind] at e
    rw [e, ok_bind]
    simp only at u2 ⊢
    have hint : ({ P' with window := { P'.window with
        expected := P'.window.expected - (((s.take w.expected).length - b'.inst.length : Nat) : Int) } } : Level).isInterleaved = true := by
      have := hb'.secs.interleaved
      unfold Level.isInterleaved at this ⊢
      exact this.trans hi
    have hexp' : P'.window.expected = w.expected := (congrArg (·.window.expected) hf.1).trans hexp
    have hle : (s.take w.expected).length ≤ w.expected := by rw [List.length_take]; omega
    rw [hint, Bool.true_and, hexp']
    by_cases hp : w.expected - ((s.take w.expected).length - b'.inst.length) > 0
    · rw [if_pos hp, if_pos (by simp only [decide_eq_true_eq]; omega)]
      have hS' := (hS.frame hf hb'.decoded hb'.low (some b'.cache)
        (some { w with expected := w.expected - ((s.take w.expected).length - b'.inst.length), pending := b'.pending })).setExpected
        ((w.expected : Int) - (((s.take w.expected).length - b'.inst.length : Nat) : Int))
      refine ⟨_, _, rfl, ⟨hS', hb'.cache, fun hx => by simp at hx, ?_⟩, u2, hf.same⟩
      intro w' hw'
      simp only [Option.some.injEq] at hw'
      subst hw'
      refine ⟨(congrArg (·.window.found) hf.1).trans hfound, hi, ?_, hb'.pending, hb'.sourceLen, hb'.targetLen, hb'.checksum, hb'.room.cap,
        ⟨hb'.source.len, hb'.source.none, hb'.source.some⟩, ?_⟩
      · show (w.expected : Int) - _ = _
        simp only
        omega
      · rcases hb'.secs with ⟨_, i, _, x, _⟩ | ⟨x, _⟩
        · exact ⟨i, x.inst, x.data, x.addr, x.live⟩
        · rw [show (L.env w.hdr).hdr = w.hdr from rfl, hi] at x
          simp at x
    · rw [if_neg hp, if_neg (by simp only [decide_eq_true_eq]; omega)]
      exact ⟨_, _, rfl, (hf.tidy hb.secs.tidy).congr rfl rfl rfl rfl, hf.config.trans ⟨rfl, rfl, rfl, rfl, rfl⟩⟩

/-- The body of a window in the standard format. -/
theorem bodyStandard_rel {P : Level} {L : Vcd.Level} {w : OpenWindow} {cache : AddrCache} {s : Bytes} {chunk : Chunk} (hS : Scal P L)
    (hi : w.hdr.interleaved = false)
    (hb : BodyRel P (L.env w.hdr) (stdBody L w cache s))
    (hat : At P.mem chunk s) (hlen : w.hdr.dataLen + w.hdr.instLen + w.hdr.addrLen ≤ s.length)
    (hc : ∀ k c, P.window.addr.chunk = some k → P.mem.objects[k]? = some (some c) →
      c.stop = chunk.pos.add (w.hdr.dataLen + w.hdr.instLen + w.hdr.addrLen)) :
    WinRel P (P.decodeWindowBody chunk) (Vcd.decodeWindowBody L w cache s) := by
  unfold Level.decodeWindowBody Vcd.decodeWindowBody
  rw [if_neg (by simp [hi])]
  simp only
  have hd := decodeBody_rel hb (chunk := chunk) (fun hx => by rw [show (L.env w.hdr).hdr = w.hdr from rfl, hi] at hx; simp at hx)
  change EndRel P (L.env w.hdr) chunk _ (Vcd.decodeBody { table := L.table, hdr := w.hdr, startPos := L.startPos }
    { pending := w.pending, inst := (s.drop w.hdr.dataLen).take w.hdr.instLen, data := s.take w.hdr.dataLen,
      addr := (s.drop (w.hdr.dataLen + w.hdr.instLen)).take w.hdr.addrLen, cache := cache, decoded := L.decoded }) at hd
  cases hdb : Vcd.decodeBody { table := L.table, hdr := w.hdr, startPos := L.startPos }
      { pending := w.pending, inst := (s.drop w.hdr.dataLen).take w.hdr.instLen, data := s.take w.hdr.dataLen,
        addr := (s.drop (w.hdr.dataLen + w.hdr.instLen)).take w.hdr.addrLen, cache := cache, decoded := L.decoded } with
  | fault f =>
    rw [hdb] at hd
    intro hf
    rw [hd hf]; rfl
  | error =>
    rw [hdb] at hd
    obtain ⟨P', e, hf⟩ := hd
    rw [e, ok_bind]
    exact ⟨P', chunk, rfl, hf.tidy hb.secs.tidy, hf.config⟩
  | endOfData b' =>
    rw [hdb] at hd
    obtain ⟨P', e, hf, hb'⟩ := hd
    have hint : P'.isInterleaved = false := hb'.secs.interleaved.trans hi
    unfold Level.stopBody Level.updateInstructionPointer at e
    rw [hint, if_neg (by simp), ok_bind] at e
    rw [e, ok_bind]
    simp only [hint, Bool.false_and, Bool.false_eq_true, if_false]
    exact ⟨P', chunk, rfl, hf.tidy hb.secs.tidy, hf.config⟩
  | ok b' =>
    rw [hdb] at hd
    obtain ⟨P', e, hf, hb'⟩ := hd
    have hint : P'.isInterleaved = false := hb'.secs.interleaved.trans hi
    obtain ⟨k, c, k1, k2, k3, _⟩ := hb.secs.addr
    obtain ⟨k', c', j1, j2, j3, _⟩ := hb'.secs.addr
    have ei : P'.window.addr = P.window.addr := congrArg (·.window.addr) hf.1
    have : k' = k := by
      rw [ei, k1] at j1
      exact (Option.some.inj j1).symm
    subst this
    have he : c'.ends = c.ends := by
      have := congrArg (fun l => l[k']?) hf.2
      simp only [Mem.shape, List.getElem?_map, k2, j2] at this
      simpa using this
    have e2 : c'.stop = chunk.pos.add (w.hdr.dataLen + w.hdr.instLen + w.hdr.addrLen) :=
      (congrArg Prod.snd he : c'.stop = c.stop).trans (hc k' c k1 k2)
    have hat' : At P'.mem chunk (s.take (w.hdr.dataLen + w.hdr.instLen + w.hdr.addrLen) ++ s.drop (w.hdr.dataLen + w.hdr.instLen + w.hdr.addrLen)) := by
      rw [List.take_append_drop]
      exact hat.same hf.same
    have hmv := hat'.move (n := w.hdr.dataLen + w.hdr.instLen + w.hdr.addrLen) (by rw [List.length_take]; omega)
    have hset : chunk.setPosition c'.stop = .ok { chunk with pos := chunk.pos.add (w.hdr.dataLen + w.hdr.instLen + w.hdr.addrLen) } := by
      rw [e2]
      have b1 := hat.startBuf
      have b2 := hat.stopBuf
      have b3 := hat.low
      have b4 := hat.stop
      unfold Chunk.setPosition
      rw [if_neg (by simp only [Ptr.add, b1, b2, ne_eq, not_true, or_self, not_false_eq_true]), if_neg (by simp only [Ptr.add]; omega)]
    unfold Level.ending at e
    rw [hint, if_neg (by simp), j1, get_live j2, ok_bind, hset, ok_bind] at e
    rw [e, ok_bind]
    simp only
    have hS' := hS.frame hf hb'.decoded hb'.low (some b'.cache) none
    obtain ⟨m, w', r1, r2, r3, r4⟩ := reset_rel hS' hb'.secs.tidy
    rw [r1, ok_bind]
    exact ⟨_, _, rfl, ⟨r2, hb'.cache, fun _ => r3, fun w hw => by simp at hw⟩, hmv.same r4, hf.same.trans r4⟩

end Vcd.Lifetime
