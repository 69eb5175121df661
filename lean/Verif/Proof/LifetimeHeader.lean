import Verif.Proof.LifetimeWindow

/-!
# The decoder with its pointers does what the decoder without them does: window headers
-/

namespace Vcd.Lifetime
open Spec

theorem add_add (p : Ptr) (a b : Nat) : (p.add a).add b = p.add (a + b) := by
  simp only [Ptr.add, Nat.add_assoc]

/-! ### Setting up the sections -/

/-- The level after the sections have been set up. -/
def Level.withSections (P : Level) (objects : List (Option Chunk)) (inst data addr : Section) (expected : Int) (reader : Reader) : Level :=
  { P with mem := { P.mem with objects }, window := { P.window with inst, data, addr, expected, reader } }

theorem free_none {s : Section} {m : Mem} (h : s.chunk = none) : s.free m = .ok (m, s) := by
  rcases s with ⟨c, o⟩
  subst h
  cases o <;> rfl

theorem init_none {s : Section} {m : Mem} (h : s.chunk = none) (p : Ptr) (n : Nat) :
    s.init m p n = .ok (m.new (.over p n), { chunk := some m.objects.length, owned := true }) := by
  rcases s with ⟨c, o⟩
  subst h
  cases o <;> rfl

/-- `UpdateInterleavedSectionPointers`, at the beginning of a window and when it is resumed. -/
theorem updateInterleaved_eq {P : Level} {chunk : Chunk} {s : Bytes} {n : Nat} (hat : At P.mem chunk s) (he : P.window.expected = (n : Int))
    (h : Empty P.window P.mem ∨ ∃ i, Shared P.window P.mem i) :
    ∃ i objects, P.updateInterleaved chunk.pos chunk.stop =
        .ok (P.withSections objects ⟨some i, true⟩ ⟨some i, false⟩ ⟨some i, false⟩ n P.window.reader) ∧
      objects[i]? = some (some (.over chunk.pos (min n s.length))) ∧
      ∀ k, ({ P.mem with objects } : Mem).Live k ↔ k = i := by
  have hd : chunk.stop.diff chunk.pos = .ok s.length := hat.unparsedSize
  have hs : (if (s.length : Int) > P.window.expected then P.window.expected.toNat else s.length) = min n s.length := by
    rw [he]
    rw [Int.toNat_natCast]
    split <;> omega
  unfold Level.updateInterleaved
  rw [hd, ok_bind]
  simp only [hs]
  rcases h with h | ⟨i, h⟩
  · refine ⟨P.mem.objects.length, (P.mem.new (.over chunk.pos (min n s.length))).objects, ?_, new_get _ _, fun k => ?_⟩
    · rw [init_none (by rw [h.inst]), ok_bind]
      simp only [Section.share, free_none h.data, free_none h.addr, ok_bind, Mem.new, Level.withSections, ← he]
    · refine (new_live P.mem (.over chunk.pos (min n s.length)) k).trans ?_
      exact ⟨fun x => x.resolve_left (h.live k), Or.inr⟩
  · obtain ⟨c, hc⟩ := (h.live i).2 rfl
    refine ⟨i, (P.mem.put i (.over chunk.pos (min n s.length))).objects, ?_, put_get hc, fun k => ?_⟩
    · rw [h.inst]
      simp only [Section.init, get_live hc, ok_bind]
      rw [h.data, h.addr]
      simp only [Section.share, Section.free, ok_bind, Bool.false_eq_true, if_false, Mem.put, Level.withSections, ← he]
    · exact (put_live ⟨c, hc⟩ _ k).trans (h.live k)

theorem setUp_interleaved {P : Level} {chunk : Chunk} {s : Bytes} {lens : SectionLengths} (hat : At P.mem chunk s)
    (h : Empty P.window P.mem) (hi : (P.numbers.allowExtensions && lens.dataLen == 0 && lens.addrLen == 0) = true) :
    ∃ i objects, P.setUpSections lens chunk.pos chunk.stop s.length =
        .ok (some (P.withSections objects ⟨some i, true⟩ ⟨some i, false⟩ ⟨some i, false⟩ lens.instLen
          (P.window.reader.init i (chunk.pos.add (min lens.instLen s.length))))) ∧
      objects[i]? = some (some (.over chunk.pos (min lens.instLen s.length))) ∧
      ∀ k, ({ P.mem with objects } : Mem).Live k ↔ k = i := by
  obtain ⟨i, objects, e, g, l⟩ := updateInterleaved_eq
    (P := { P with window := { P.window with expected := lens.instLen } }) (n := lens.instLen) hat rfl
    (Or.inl ⟨h.inst, h.data, h.addr, h.live⟩)
  refine ⟨i, objects, ?_, g, l⟩
  unfold Level.setUpSections
  rw [if_pos hi, e]
  simp only [ok_bind, Level.withSections]
  rw [get_live (c := .over chunk.pos (min lens.instLen s.length)) g, ok_bind]
  rfl

theorem setUp_separate {P : Level} {chunk : Chunk} {s : Bytes} {lens : SectionLengths}
    (h : Empty P.window P.mem) (hi : (P.numbers.allowExtensions && lens.dataLen == 0 && lens.addrLen == 0) = false)
    (hlen : ¬ s.length < lens.dataLen + lens.instLen + lens.addrLen) :
    P.setUpSections lens chunk.pos chunk.stop s.length =
      .ok (some (P.withSections (P.mem.objects ++ [some (.over chunk.pos lens.dataLen)] ++
            [some (.over (chunk.pos.add lens.dataLen) lens.instLen)] ++
            [some (.over (chunk.pos.add (lens.dataLen + lens.instLen)) lens.addrLen)])
        ⟨some (P.mem.objects.length + 1), true⟩ ⟨some P.mem.objects.length, true⟩ ⟨some (P.mem.objects.length + 2), true⟩ P.window.expected
        (P.window.reader.init (P.mem.objects.length + 1) (chunk.pos.add (lens.dataLen + lens.instLen))))) := by
  unfold Level.setUpSections
  rw [if_neg (by simp [hi]), if_neg hlen, init_none h.data]
  simp only [ok_bind]
  rw [get_live (new_get _ _), ok_bind, init_none (by rw [h.inst])]
  simp only [ok_bind]
  rw [get_live (new_get _ _), ok_bind, init_none h.addr]
  simp only [ok_bind, Mem.new, List.length_append, List.length_singleton]
  rw [get_live (c := .over (chunk.pos.add lens.dataLen) lens.instLen) (by simp; rfl)]
  simp only [ok_bind, Chunk.over, add_add, Level.withSections]

theorem setUp_short {P : Level} {chunk : Chunk} {s : Bytes} {lens : SectionLengths}
    (hi : (P.numbers.allowExtensions && lens.dataLen == 0 && lens.addrLen == 0) = false)
    (hlen : s.length < lens.dataLen + lens.instLen + lens.addrLen) :
    P.setUpSections lens chunk.pos chunk.stop s.length = .ok none := by
  unfold Level.setUpSections
  rw [if_neg (by simp [hi]), if_pos hlen]
  rfl

/-! ### The header -/

theorem Scal.allowExtensions {P : Level} {L : Vcd.Level} (h : Scal P L) : P.numbers.allowExtensions = L.allowExtensions := by
  unfold Vcd.Level.allowExtensions Level.numbers
  rw [h.version]

theorem Scal.wouldExceed {P : Level} {L : Vcd.Level} (h : Scal P L) (n : Nat) : P.numbers.wouldExceed n = L.wouldExceed n := by
  unfold Vcd.Level.wouldExceed Level.numbers
  rw [h.planned, h.maxFile, h.maxWin, h.total]

theorem Scal.reachedPlanned {P : Level} {L : Vcd.Level} (h : Scal P L) : P.numbers.reachedPlanned = L.reachedPlanned := by
  unfold Vcd.Level.reachedPlanned Level.numbers
  simp only [h.planned, h.total]

/-- The parsed members as in `Vcd.headerFields`. -/
def fieldsOf (f : (UInt8 × Nat × Nat) × Nat × SectionLengths) : Fields :=
  { indicator := f.1.1, sourceLen := f.1.2.1, sourcePos := f.1.2.2, targetLen := f.2.1, lens := f.2.2 }

theorem headerFields_eq {P : Level} {L : Vcd.Level} (h : Scal P L) (s : Bytes) :
    headerFields P.numbers P.dictSize P.mem.decoded.text.length s = (Vcd.headerFields L s).bind fun f r => .ok (fieldsOf f) r := by
  unfold headerFields Vcd.headerFields Vcd.deltaFields
  rw [h.dictSize, h.decoded, h.allowExtensions, show P.numbers.allowTarget = L.allowTarget from h.allowTarget]
  cases parseWinIndicator L.dict.length L.decoded.length L.allowTarget s with
  | endOfData => rfl
  | error => rfl
  | ok isp s =>
    simp only [Parsed.bind_ok]
    cases parseSize s with
    | endOfData => rfl
    | error => rfl
    | ok dl s =>
      simp only [Parsed.bind_ok]
      cases parseSize s with
      | endOfData => rfl
      | error => rfl
      | ok tl s' =>
        simp only [Parsed.bind_ok, h.wouldExceed]
        by_cases he : L.wouldExceed tl = true
        · simp [he]
        · simp only [he, Bool.false_eq_true, if_false]
          cases parseDeltaIndicator s' with
          | endOfData => rfl
          | error => rfl
          | ok u s'' =>
            simp only [Parsed.bind_ok]
            generalize parseSectionLengths _ _ _ _ = q
            cases q <;> rfl

/-- The source segment is inside the dictionary or the decoded target. -/
theorem fields_inside {L : Vcd.Level} {s r : Bytes} {f : (UInt8 × Nat × Nat) × Nat × SectionLengths} (h : Vcd.headerFields L s = .ok f r) :
    (f.1.1 &&& vcdSource ≠ 0 → f.1.2.2 + f.1.2.1 ≤ L.dict.length) ∧
    (f.1.1 &&& vcdSource = 0 → f.1.1 &&& vcdTarget ≠ 0 → f.1.2.2 + f.1.2.1 ≤ L.decoded.length) ∧
    (f.1.1 &&& vcdSource = 0 → f.1.1 &&& vcdTarget = 0 → f.1.2.1 = 0) := by
  unfold Vcd.headerFields at h
  obtain ⟨isp, s1, g1, h⟩ := Parsed.bind_eq_ok.1 h
  obtain ⟨dl, s2, g2, h⟩ := Parsed.bind_eq_ok.1 h
  obtain ⟨tl, s3, g3, h⟩ := Parsed.bind_eq_ok.1 h
  simp only [Parsed.ok.injEq] at h
  obtain ⟨rfl, rfl⟩ := h
  exact Word.segment_inside g1

theorem holds_segment {m : Mem} {b : Buf} {x : Bytes} (h : m.block b = some x) {pos len : Nat} (hl : pos + len ≤ x.length) :
    Holds m ⟨b, pos⟩ ((x.drop pos).take len) := by
  refine ⟨x.take pos, (x.drop pos).drop len, ?_, by simp; omega⟩
  rw [h, List.append_assoc, List.take_append_drop, List.take_append_drop]

/-- `ReadHeader` has found a window. -/
structure Found (P Q : Level) (L : Vcd.Level) (hdr : WinHeader) (chunk : Chunk) (rest : Bytes) : Prop where
  scal : Scal Q { L with total := L.total + hdr.targetLen }
  cache : Q.cache = P.cache
  holds : At Q.mem chunk rest
  same : SameInput P.mem Q.mem
  config : Config P Q
  tidy : Tidy Q.window Q.mem
  found : Q.window.found = true
  inter : hdr.interleaved = true → Q.window.expected = hdr.instLen ∧
    (∀ cache, BodyRel { Q with cache := some cache } (({ L with total := L.total + hdr.targetLen } : Vcd.Level).env hdr)
      { pending := none, inst := rest.take hdr.instLen, data := [], addr := [], cache := cache, decoded := L.decoded }) ∧
    ∀ i c, Q.window.inst.chunk = some i → Q.mem.objects[i]? = some (some c) → c.pos = chunk.pos ∧ c.start = chunk.pos
  std : hdr.interleaved = false → hdr.dataLen + hdr.instLen + hdr.addrLen ≤ rest.length ∧
    (∀ cache, BodyRel { Q with cache := some cache } (({ L with total := L.total + hdr.targetLen } : Vcd.Level).env hdr)
      (stdBody { L with total := L.total + hdr.targetLen } { hdr := hdr, expected := hdr.instLen, pending := none } cache rest)) ∧
    ∀ k c, Q.window.addr.chunk = some k → Q.mem.objects[k]? = some (some c) →
      c.stop = chunk.pos.add (hdr.dataLen + hdr.instLen + hdr.addrLen)

/-- What `ReadHeader` does with and without pointers. -/
def HeadRel (P : Level) (L : Vcd.Level) (chunk : Chunk) (r : Except Bad (Outcome × Level × Chunk)) : Parsed WinHeader → Prop
  | .ok hdr rest => ∃ Q c', r = .ok (.ok, Q, c') ∧ Found P Q L hdr c' rest
  | .endOfData => r = .ok (.endOfData, P, chunk)
  | .error => r = .ok (.error, P, chunk)

/-- `source_segment_ptr_` after `ReadHeader`. -/
def sourceOf (f : Fields) (version : Nat) : Option Ptr :=
  if f.indicator &&& vcdSource ≠ 0 then some ⟨.dict, f.sourcePos⟩
  else if f.indicator &&& vcdTarget ≠ 0 then some ⟨.decoded version, f.sourcePos⟩
  else none

theorem sourceOf_rel {L : Vcd.Level} {s r : Bytes} {f : (UInt8 × Nat × Nat) × Nat × SectionLengths} (h : Vcd.headerFields L s = .ok f r)
    {w : Window} {m : Mem} (hw : w.source = sourceOf (fieldsOf f) m.decoded.version) (hd : m.dict = some L.dict)
    (ht : m.decoded.text = L.decoded) : SourceRel w m (mkHeader L f) := by
  obtain ⟨h1, h2, h3⟩ := fields_inside h
  unfold sourceOf fieldsOf at hw
  simp only at hw
  by_cases a : f.1.1 &&& vcdSource ≠ 0
  · rw [if_pos a] at hw
    have e : (mkHeader L f).source = (L.dict.drop f.1.2.2).take f.1.2.1 := by
      unfold mkHeader
      simp only
      rw [if_pos a]
    refine ⟨?_, fun x => ?_, fun p hp => ?_⟩
    · rw [e, List.length_take, List.length_drop]
      have := h1 a
      show min f.1.2.1 _ = f.1.2.1
      omega
    · rw [hw] at x; simp at x
    · rw [hw, Option.some.injEq] at hp
      subst hp
      rw [e]
      exact ⟨Or.inl rfl, holds_segment (b := .dict) hd (h1 a)⟩
  rw [if_neg a] at hw
  have a' : f.1.1 &&& vcdSource = 0 := Decidable.not_not.1 a
  by_cases b : f.1.1 &&& vcdTarget ≠ 0
  · rw [if_pos b] at hw
    have e : (mkHeader L f).source = (L.decoded.drop f.1.2.2).take f.1.2.1 := by
      unfold mkHeader
      simp only
      rw [if_neg a, if_pos b]
    refine ⟨?_, fun x => ?_, fun p hp => ?_⟩
    · rw [e, List.length_take, List.length_drop]
      have := h2 a' b
      show min f.1.2.1 _ = f.1.2.1
      omega
    · rw [hw] at x; simp at x
    · rw [hw, Option.some.injEq] at hp
      subst hp
      rw [e]
      exact ⟨Or.inr rfl, holds_segment (b := .decoded m.decoded.version) (by simp only [Mem.block, if_true, ht]) (h2 a' b)⟩
  rw [if_neg b] at hw
  have e : (mkHeader L f).source = [] := by
    unfold mkHeader
    simp only
    rw [if_neg a, if_neg b, List.take_nil]
  have z := h3 a' (Decidable.not_not.1 b)
  refine ⟨?_, fun _ => z, fun p hp => ?_⟩
  · rw [e]; exact z.symm
  · rw [hw] at hp; simp at hp

theorem reserve_text (s : Str) (n : Nat) : (s.reserve n).text = s.text := by
  unfold Str.reserve
  split <;> rfl

theorem reserve_cap (s : Str) (n : Nat) : n ≤ (s.reserve n).capacity := by
  unfold Str.reserve
  split
  · exact Nat.le_refl _
  · omega

/-- `ReadHeader` after the sections have been set up. -/
def Level.withHeader (P : Level) (f : Fields) : Level :=
  { P with
    mem := { P.mem with decoded := P.mem.decoded.reserve (P.window.startPos + f.targetLen) }
    total := P.total + f.targetLen
    window := { P.window with
      found := true, source := sourceOf f (P.mem.decoded.reserve (P.window.startPos + f.targetLen)).version, sourceLen := f.sourceLen,
      targetLen := f.targetLen, checksum := f.lens.checksum } }

theorem readHeader_step {P : Level} {chunk : Chunk} {pre rest : Bytes} (hat : At P.mem chunk (pre ++ rest)) {f : Fields}
    (hf : headerFields P.numbers P.dictSize P.mem.decoded.text.length (pre ++ rest) = .ok f rest) (hs : P.window.source = none)
    {objects : List (Option Chunk)} {inst data addr : Section} {expected : Int} {reader : Reader}
    (h : P.setUpSections f.lens (chunk.pos.add pre.length) chunk.stop rest.length =
      .ok (some (P.withSections objects inst data addr expected reader))) :
    P.readHeader chunk = .ok (.ok, (P.withSections objects inst data addr expected reader).withHeader f,
      { chunk with pos := chunk.pos.add pre.length }) := by
  unfold Level.readHeader
  rw [hat.view, ok_bind, hf]
  have e : (pre ++ rest).length - rest.length = pre.length := by simp
  simp only [e, h, ok_bind, hat.advance rfl]
  unfold Level.withHeader sourceOf Level.withSections
  simp only [hs]

theorem readHeader_rel {P : Level} {L : Vcd.Level} (hR : Rel P L) (hw : L.win = none) {chunk : Chunk} {s : Bytes} (hat : At P.mem chunk s) :
    HeadRel P L chunk (P.readHeader chunk) (Vcd.readHeader L s) := by
  obtain ⟨_, hsrc, hemp⟩ := hR.closed hw
  have hfe := headerFields_eq hR.scal s
  have hro := @Vcd.readHeader_ok L s
  rw [Vcd.readHeader_eq] at hro ⊢
  cases hf : Vcd.headerFields L s with
  | error =>
    rw [hf] at hfe
    show P.readHeader chunk = _
    unfold Level.readHeader
    rw [hat.view, ok_bind, hfe]; rfl
  | endOfData =>
    rw [hf] at hfe
    show P.readHeader chunk = _
    unfold Level.readHeader
    rw [hat.view, ok_bind, hfe]; rfl
  | ok f rest =>
    rw [hf] at hfe hro
    simp only [Parsed.bind_ok] at hfe hro ⊢
    obtain ⟨pre, hp, _⟩ := (Local.headerFields L).ok hf
    subst hp
    have hmv := hat.move (n := pre.length) rfl
    have hext : (P.numbers.allowExtensions && f.2.2.dataLen == 0 && f.2.2.addrLen == 0) = headerInterleaved L f.2.2 := by
      rw [hR.scal.allowExtensions]; rfl
    by_cases hshort : (!headerInterleaved L f.2.2 && decide (rest.length < f.2.2.dataLen + f.2.2.instLen + f.2.2.addrLen)) = true
    · rw [if_pos hshort]
      simp only [Bool.and_eq_true, Bool.not_eq_true', decide_eq_true_eq] at hshort
      have := setUp_short (P := P) (chunk := { chunk with pos := chunk.pos.add pre.length }) (s := rest) (lens := f.2.2)
        (by rw [hext]; exact hshort.1) hshort.2
      show P.readHeader chunk = _
      unfold Level.readHeader
      rw [hat.view, ok_bind, hfe]
      have e : (pre ++ rest).length - rest.length = pre.length := by simp
      simp only [e]
      simp only at this
      rw [show (fieldsOf f).lens = f.2.2 from rfl, this]
      rfl
    rw [if_neg hshort] at hro ⊢
    obtain ⟨_, _, _, _, _, _, hro1, hro2, _⟩ := hro rfl
    -- what is common to both formats
    have common : ∀ (objects : List (Option Chunk)) (inst data addr : Section) (expected : Int) (i : Nat) (stop : Ptr),
        let Q := (P.withSections objects inst data addr expected (P.window.reader.init i stop)).withHeader (fieldsOf f)
        Scal Q { L with total := L.total + (mkHeader L f).targetLen } ∧ SameInput P.mem Q.mem ∧ Config P Q ∧
        ∀ cache (x d a : Bytes), Secs Q.window Q.mem (L.env (mkHeader L f)) x d a →
          BodyRel { Q with cache := some cache } (({ L with total := L.total + (mkHeader L f).targetLen } : Vcd.Level).env (mkHeader L f))
            { pending := none, inst := x, data := d, addr := a, cache := cache, decoded := L.decoded } := by
      intro objects inst data addr expected i stop Q
      have hS := hR.scal
      refine ⟨⟨hS.table, hS.started, hS.dict, hS.dictSize, hS.version, hS.planned, hS.maxFile, hS.maxWin, ?_, hS.allowTarget, hS.outPos,
        hS.tableString, ?_, hS.startPos, hS.low⟩, ⟨rfl, rfl, rfl⟩, ⟨rfl, rfl, rfl, rfl, rfl⟩, ?_⟩
      · show P.total + _ = L.total + _
        rw [hS.total]; rfl
      · exact (reserve_text _ _).trans hS.decoded
      · intro cache x d a hsec
        refine ⟨hS.table, rfl, rfl, (reserve_text _ _).trans hS.decoded, ⟨hS.startPos, ?_⟩, rfl, rfl, rfl, hS.low, ?_, hsec⟩
        · show L.startPos + (mkHeader L f).targetLen ≤ _
          rw [← hS.startPos]
          exact reserve_cap _ _
        · exact sourceOf_rel (w := Q.window) (m := Q.mem) hf rfl hS.dict ((reserve_text _ _).trans hS.decoded)
    cases hi : headerInterleaved L f.2.2 with
    | true =>
      obtain ⟨i, objects, s1, s2, s3⟩ := setUp_interleaved (lens := f.2.2) hmv hemp (by rw [hext]; exact hi)
      obtain ⟨c1, c2, c3, c4⟩ := common objects ⟨some i, true⟩ ⟨some i, false⟩ ⟨some i, false⟩ f.2.2.instLen i
        ((chunk.pos.add pre.length).add (min f.2.2.instLen rest.length))
      have hsh : ∀ Q : Level, Q.window.inst = ⟨some i, true⟩ → Q.window.data = ⟨some i, false⟩ → Q.window.addr = ⟨some i, false⟩ →
          Q.mem.objects = objects → Shared Q.window Q.mem i := by
        intro Q q1 q2 q3 q4
        refine ⟨q1, q2, q3, fun k => ?_⟩
        have := s3 k
        unfold Mem.Live at this ⊢
        rw [q4]; exact this
      refine ⟨_, _, readHeader_step hat hfe hsrc s1, c1, rfl, hmv.same c2, c2, c3, Or.inr (Or.inl ⟨i, hsh _ rfl rfl rfl rfl⟩), rfl, ?_, ?_⟩
      · intro _
        refine ⟨rfl, fun cache => c4 cache _ _ _ (Or.inl ⟨hi, i, _, hsh _ rfl rfl rfl rfl, s2, ?_, rfl⟩), ?_⟩
        · have hx : At P.mem { chunk with pos := chunk.pos.add pre.length } (rest.take f.2.2.instLen ++ rest.drop f.2.2.instLen) := by
            rw [List.take_append_drop]; exact hmv
          exact (hx.over (n := min f.2.2.instLen rest.length) (by rw [List.length_take])).same c2
        · intro j c hj hc
          have : j = i := (Option.some.inj hj).symm
          subst this
          have e : c = .over (chunk.pos.add pre.length) (min f.2.2.instLen rest.length) :=
            (Option.some.inj (Option.some.inj (s2.symm.trans hc))).symm
          rw [e]
          exact ⟨rfl, rfl⟩
      · intro x
        have : headerInterleaved L f.2.2 = false := x
        rw [hi] at this
        simp at this
    | false =>
      have hlen : ¬ rest.length < f.2.2.dataLen + f.2.2.instLen + f.2.2.addrLen := by
        have := hro2 hi
        show ¬ _ < (mkHeader L f).dataLen + (mkHeader L f).instLen + (mkHeader L f).addrLen
        omega
      have s1 := setUp_separate (P := P) (chunk := { chunk with pos := chunk.pos.add pre.length }) hemp (by rw [hext]; exact hi) hlen
      simp only at s1
      obtain ⟨c1, c2, c3, c4⟩ := common (P.mem.objects ++ [some (.over (chunk.pos.add pre.length) f.2.2.dataLen)] ++
            [some (.over ((chunk.pos.add pre.length).add f.2.2.dataLen) f.2.2.instLen)] ++
            [some (.over ((chunk.pos.add pre.length).add (f.2.2.dataLen + f.2.2.instLen)) f.2.2.addrLen)])
        ⟨some (P.mem.objects.length + 1), true⟩ ⟨some P.mem.objects.length, true⟩ ⟨some (P.mem.objects.length + 2), true⟩
        P.window.expected (P.mem.objects.length + 1) ((chunk.pos.add pre.length).add (f.2.2.dataLen + f.2.2.instLen))
      generalize hobj : (P.mem.objects ++ [some (.over (chunk.pos.add pre.length) f.2.2.dataLen)] ++
            [some (.over ((chunk.pos.add pre.length).add f.2.2.dataLen) f.2.2.instLen)] ++
            [some (.over ((chunk.pos.add pre.length).add (f.2.2.dataLen + f.2.2.instLen)) f.2.2.addrLen)]) = objects at s1 c1 c2 c3 c4
      have o1 : objects[P.mem.objects.length]? = some (some (.over (chunk.pos.add pre.length) f.2.2.dataLen)) := by
        rw [← hobj]; simp
      have o2 : objects[P.mem.objects.length + 1]? = some (some (.over ((chunk.pos.add pre.length).add f.2.2.dataLen) f.2.2.instLen)) := by
        rw [← hobj]; simp
      have o3 : objects[P.mem.objects.length + 2]? =
          some (some (.over ((chunk.pos.add pre.length).add (f.2.2.dataLen + f.2.2.instLen)) f.2.2.addrLen)) := by
        rw [← hobj]; simp
      have hsep : ∀ Q : Level, Q.window.inst = ⟨some (P.mem.objects.length + 1), true⟩ → Q.window.data = ⟨some P.mem.objects.length, true⟩ →
          Q.window.addr = ⟨some (P.mem.objects.length + 2), true⟩ → Q.mem.objects = objects →
          Separate Q.window Q.mem (P.mem.objects.length + 1) P.mem.objects.length (P.mem.objects.length + 2) := by
        intro Q q1 q2 q3 q4
        refine ⟨q1, q2, q3, by omega, by omega, by omega, fun k => ?_⟩
        constructor
        · intro hk
          have hlt := live_lt hk
          rw [q4, ← hobj] at hlt
          simp only [List.length_append, List.length_singleton] at hlt
          by_cases hk2 : k < P.mem.objects.length
          · exfalso
            apply hemp.live k
            unfold Mem.Live at hk ⊢
            rw [q4, ← hobj, List.getElem?_append_left (by simp; omega), List.getElem?_append_left (by simp; omega),
              List.getElem?_append_left hk2] at hk
            exact hk
          · omega
        · unfold Mem.Live
          rw [q4]
          rintro (rfl | rfl | rfl)
          · exact ⟨_, o2⟩
          · exact ⟨_, o1⟩
          · exact ⟨_, o3⟩
      refine ⟨_, _, readHeader_step hat hfe hsrc s1, c1, rfl, hmv.same c2, c2, c3, Or.inr (Or.inr ⟨_, _, _, hsep _ rfl rfl rfl rfl⟩), rfl, ?_, ?_⟩
      · intro x
        have : headerInterleaved L f.2.2 = true := x
        rw [hi] at this
        simp at this
      · intro _
        refine ⟨hro2 hi, fun cache => c4 cache _ _ _ (Or.inr ⟨hi, _, _, _, _, _, _, hsep _ rfl rfl rfl rfl, o2, ?_, by simp only [Chunk.over, add_add, Nat.add_assoc]; rfl, o1, ?_, o3, ?_⟩), ?_⟩
        · have hx : At P.mem { chunk with pos := chunk.pos.add pre.length } (rest.take f.2.2.dataLen ++ rest.drop f.2.2.dataLen) := by
            rw [List.take_append_drop]; exact hmv
          have hy := hx.move (n := f.2.2.dataLen) (by rw [List.length_take]; omega)
          rw [← List.take_append_drop f.2.2.instLen (rest.drop f.2.2.dataLen)] at hy
          exact (hy.over (n := f.2.2.instLen) (by rw [List.length_take, List.length_drop]; omega)).same c2
        · have hx : At P.mem { chunk with pos := chunk.pos.add pre.length } (rest.take f.2.2.dataLen ++ rest.drop f.2.2.dataLen) := by
            rw [List.take_append_drop]; exact hmv
          exact (hx.over (n := f.2.2.dataLen) (by rw [List.length_take]; omega)).same c2
        · have hx : At P.mem { chunk with pos := chunk.pos.add pre.length }
              (rest.take (f.2.2.dataLen + f.2.2.instLen) ++ rest.drop (f.2.2.dataLen + f.2.2.instLen)) := by
            rw [List.take_append_drop]; exact hmv
          have hy := hx.move (n := f.2.2.dataLen + f.2.2.instLen) (by rw [List.length_take]; omega)
          rw [← List.take_append_drop f.2.2.addrLen (rest.drop (f.2.2.dataLen + f.2.2.instLen))] at hy
          exact (hy.over (n := f.2.2.addrLen) (by rw [List.length_take, List.length_drop]; omega)).same c2
        · intro j c hj hc
          have : j = P.mem.objects.length + 2 := (Option.some.inj hj).symm
          subst this
          have e : c = .over ((chunk.pos.add pre.length).add (f.2.2.dataLen + f.2.2.instLen)) f.2.2.addrLen :=
            (Option.some.inj (Option.some.inj (o3.symm.trans hc))).symm
          rw [e]
          show Ptr.add (Ptr.add _ _) _ = _
          rw [add_add]
          rfl

end Vcd.Lifetime
