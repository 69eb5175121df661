import Verif.Proof.DecodeWorkChunk
import Verif.Proof.MemoryWitness

/-! # C66: the steps of a sequence of chunks -/

namespace Vcd
open Spec

theorem plain_header {s r full : Bytes} {hdr : FileHeader} (h : readFileHeader s = .ok hdr r) (hp : s <+: full)
    (hb : full.getD 4 0 &&& 2 = 0) : hdr.caches = none := by
  have h5 := readFileHeader_ok_len h
  obtain ⟨t, rfl⟩ := hp
  have hb : s.getD 4 0 &&& 2 = 0 := by
    rw [List.getD_eq_getElem?_getD, List.getElem?_append_left (by omega), ← List.getD_eq_getElem?_getD] at hb
    exact hb
  unfold readFileHeader at h
  cases hm : checkMagic s with
  | none => simp [hm] at h
  | some b =>
    cases b with
    | false => simp [hm] at h
    | true =>
      simp only [hm] at h
      split at h
      · simp at h
      · rw [if_neg (by rw [hb]; simp)] at h
        simp only [Parsed.ok.injEq] at h
        rw [← h.1]

/-- What holds while a delta without a custom code table is fed. -/
structure PlainFed (M : Nat) (d : Decoder) (given : Bytes) (sent : Nat) : Prop where
  fed : Fed d
  leaf : d.nested = []
  cells : CellsLe 772 d.top
  bytes : d.top.cache = none → d.top.unparsed = given
  limit : Limited M d.top
  total : d.top.total = d.top.owed + sent

theorem PlainFed.start {d : Decoder} (hs : d.top.started = false) (dict : Bytes) : PlainFed d.top.maxFile (d.start dict) [] 0 := by
  have e := start_fresh hs dict
  refine ⟨Fed.start d hs dict, by rw [e], ?_, ?_, ?_, ?_⟩
  · intro c hc; rw [e] at hc; exact absurd hc (by simp [Level.reset])
  · intro _; rw [e]; rfl
  · rw [e]; exact ⟨Nat.zero_le _, Or.inl rfl⟩
  · rw [e]; rfl

/-- The number of steps of a chunk of a delta without a custom code table. -/
theorem PlainFed.chunk {M : Nat} {d : Decoder} {fed full c : Bytes} {sent : Nat} (h : PlainFed M d fed sent) (hp : fed ++ c <+: full)
    (hb : full.getD 4 0 &&& 2 = 0) :
    (∀ L ns out, d.decodeChunk c = .ok L ns out → PlainFed M { top := L, nested := ns } (fed ++ c) (sent + out.length) ∧
      d.chunkSteps c + L.part ≤ 139 * (d.top.unparsed ++ c).length + 1563 + 4 * out.length + d.top.part ∧
      L.unparsed.length ≤ (d.top.unparsed ++ c).length) ∧
    ((∀ L ns out, d.decodeChunk c ≠ .ok L ns out) →
      d.chunkSteps c + 4 * sent ≤ 139 * (d.top.unparsed ++ c).length + 1563 + 4 * M + d.top.part) := by
  have hf : (decodeChunkFuelW (d.depthBound c) d.top [] c).1 = d.decodeChunk c := by
    rw [← h.leaf]; exact decodeChunkW_fst d c
  have hx : d.chunkSteps c = (decodeChunkFuelW (d.depthBound c) d.top [] c).2 := by
    rw [← h.leaf]; rfl
  have hfu : ∃ f, d.depthBound c = f + 1 := ⟨d.depthBound c - 1, by unfold Decoder.depthBound; omega⟩
  obtain ⟨f, hfu⟩ := hfu
  have hnode : NodeInv d.top := h.fed.chain.node
  rw [hfu] at hx hf
  obtain ⟨p1, p2⟩ := plainChunkW_steps (K := 772) (q := 131) (fuel := f) (by omega) (by omega) hnode h.cells h.limit c (by
    intro hc hdr rest hr
    rw [h.bytes hc] at hr
    exact plain_header hr hp hb)
  rw [hx]
  refine ⟨fun L ns out hr => ?_, fun hr => ?_⟩
  · obtain ⟨k1, k2, k3⟩ := p1 L ns out (hf.trans hr)
    subst k1
    rw [decodeChunk_eq] at hr
    have hok := (chunk_inv h.fed.chain c).1 _ _ _ hr
    obtain ⟨pre, hsuf⟩ := hok.suffix
    refine ⟨⟨h.fed.next hr, rfl, k2, ?_, ?_, ?_⟩, by omega, by rw [hsuf, List.length_append]; omega⟩
    · intro hc
      have hc : L.cache = none := hc
      cases hcd : d.top.cache with
      | none =>
        rcases hok.plain hcd with ⟨_, e, _⟩ | ⟨_, _, _, _, e, _⟩
        · have : L.unparsed = d.top.unparsed ++ c := by rw [e]; rfl
          rw [← h.bytes hcd]; exact this
        · exact absurd hc e
      | some x => exact absurd hc (hok.some (by rw [hcd]; simp)).1
    · refine ⟨?_, ?_⟩
      · rcases h.limit.2 with e | e
        · have := hok.file (by rw [e]; exact h.limit.1)
          rw [hok.config.maxFile, e] at this
          exact this
        · exact hok.plan M e h.limit.1
      · show L.maxFile = M ∨ L.planned = some M
        rw [hok.config.maxFile, hok.config.planned]
        exact h.limit.2
    · have := hok.total
      have := h.total
      show L.total = L.owed + (sent + out.length)
      omega
  · have := p2 (by rw [hf]; exact hr)
    have h1 := h.total
    have h2 := h.limit.1
    have : d.top.room M + sent = M := by unfold Level.room; omega
    omega

/-- The number of steps of chunks of such a delta. -/
theorem PlainFed.chunks {M : Nat} {d e : Decoder} {fed full o : Bytes} {sent : Nat} {cs : List Bytes} (h : PlainFed M d fed sent)
    (hp : fed ++ cs.flatten <+: full) (hb : full.getD 4 0 &&& 2 = 0) (hf : d.feed cs = some (o, e)) {N : Nat}
    (hN : d.top.unparsed.length + cs.flatten.length ≤ N) :
    PlainFed M e (fed ++ cs.flatten) (sent + o.length) ∧
    d.callsSteps (cs.map .chunk) + e.top.part ≤ cs.length * (139 * N + 1563) + 4 * o.length + d.top.part := by
  induction cs generalizing d fed sent o with
  | nil =>
    simp only [Decoder.feed, Option.some.injEq, Prod.mk.injEq] at hf
    obtain ⟨rfl, rfl⟩ := hf
    refine ⟨by simpa using h, ?_⟩
    simp [Decoder.callsSteps]
  | cons c cs ih =>
    obtain ⟨L, ns, o1, o2, k1, k2, rfl⟩ := feed_cons_some hf
    rw [← decodeChunk_eq] at k1
    simp only [List.flatten_cons, List.length_append] at hN hp ⊢
    rw [← List.append_assoc] at hp ⊢
    have hp1 : fed ++ c <+: full := (List.prefix_append _ _).trans hp
    obtain ⟨s1, s2, s3⟩ := (h.chunk hp1 hb).1 _ _ _ k1
    have hcall : d.call (.chunk c) = .ok (⟨true, o1⟩, { top := L, nested := ns }) := by simp [Decoder.call, k1]
    rw [List.length_append] at s2 s3
    obtain ⟨i1, i2⟩ := ih s1 hp k2 (by show L.unparsed.length + _ ≤ N; omega)
    refine ⟨by rw [← Nat.add_assoc]; exact i1, ?_⟩
    have hs : d.callsSteps ((c :: cs).map .chunk) = d.chunkSteps c + Decoder.callsSteps { top := L, nested := ns } (cs.map .chunk) := by
      simp only [List.map_cons, Decoder.callsSteps, hcall]
    rw [hs, List.length_cons, Nat.succ_mul]
    have e : (({ top := L, nested := ns } : Decoder).top).part = L.part := rfl
    rw [e] at i2
    omega

/-! ### Any delta -/

/-- What holds while any delta is fed. -/
structure AnyFed (M : Nat) (d : Decoder) (sent : Nat) : Prop where
  fed : Fed d
  limit : Limited M d.top
  total : d.top.total = d.top.owed + sent

theorem AnyFed.start {d : Decoder} (hs : d.top.started = false) (dict : Bytes) : AnyFed d.top.maxFile (d.start dict) 0 := by
  have := PlainFed.start hs dict
  exact ⟨this.fed, this.limit, this.total⟩

theorem chainInput_eq (d : Decoder) (c : Bytes) : chainInput d.top d.nested c = heldInput d + c.length := rfl

theorem potential_eq (L : Level) (ns : List Level) : heldInput { top := L, nested := ns } + 7 * ns.length = potential L ns := by
  induction ns generalizing L with
  | nil => simp [potential, heldInput]
  | cons n ns ih =>
    have := ih n
    simp only [heldInput, List.map_cons, List.sum_cons, List.length_cons, potential] at *
    omega

/-- The number of steps of a chunk of any delta. -/
theorem AnyFed.chunk {M : Nat} {d : Decoder} {sent : Nat} (h : AnyFed M d sent) (c : Bytes) :
    (∀ L ns out, d.decodeChunk c = .ok L ns out → AnyFed M { top := L, nested := ns } (sent + out.length) ∧
      d.chunkSteps c + L.part ≤ (d.nested.length + 1 + (heldInput d + c.length) / 7) * levelSteps (heldInput d + c.length) +
        4 * out.length + d.top.part ∧
      heldInput { top := L, nested := ns } + 7 * ns.length ≤ heldInput d + 7 * d.nested.length + c.length) ∧
    ((∀ L ns out, d.decodeChunk c ≠ .ok L ns out) →
      d.chunkSteps c + 4 * sent ≤ (d.nested.length + 1 + (heldInput d + c.length) / 7) * levelSteps (heldInput d + c.length) +
        4 * M + d.top.part) := by
  obtain ⟨p1, p2⟩ := chunkW_steps (M := M) (fuel := d.depthBound c) (data := c) (Nat.le_refl _) h.fed.chain h.limit
  have hf : (decodeChunkFuelW (d.depthBound c) d.top d.nested c).1 = d.decodeChunk c := decodeChunkW_fst d c
  have hx : d.chunkSteps c = (decodeChunkFuelW (d.depthBound c) d.top d.nested c).2 := rfl
  rw [hx]
  rw [chainInput_eq] at p1 p2
  refine ⟨fun L ns out hr => ?_, fun hr => ?_⟩
  · have k3 := p1 L ns out (hf.trans hr)
    rw [decodeChunk_eq] at hr
    have hok := (chunk_inv h.fed.chain c).1 _ _ _ hr
    have hpot := chunkRun_potential h.fed.chain hr
    have hp1 : heldInput { top := L, nested := ns } + 7 * ns.length = potential L ns := potential_eq L ns
    have hp2 : heldInput d + 7 * d.nested.length = potential d.top d.nested := potential_eq d.top d.nested
    refine ⟨⟨h.fed.next hr, ⟨?_, ?_⟩, ?_⟩, by omega, by omega⟩
    · rcases h.limit.2 with e | e
      · have := hok.file (by rw [e]; exact h.limit.1)
        rw [hok.config.maxFile, e] at this
        exact this
      · exact hok.plan M e h.limit.1
    · show L.maxFile = M ∨ L.planned = some M
      rw [hok.config.maxFile, hok.config.planned]
      exact h.limit.2
    · have := hok.total
      have := h.total
      show L.total = L.owed + (sent + out.length)
      omega
  · have := p2 (by rw [hf]; exact hr)
    have h1 := h.total
    have h2 := h.limit.1
    have : d.top.room M + sent = M := by unfold Level.room; omega
    omega

/-- The number of steps of chunks of any delta. -/
theorem AnyFed.chunks {M : Nat} {d e : Decoder} {o : Bytes} {sent : Nat} {cs : List Bytes} (h : AnyFed M d sent)
    (hf : d.feed cs = some (o, e)) {N : Nat} (hN : heldInput d + 7 * d.nested.length + cs.flatten.length ≤ N) :
    AnyFed M e (sent + o.length) ∧
    d.callsSteps (cs.map .chunk) + e.top.part ≤ cs.length * ((1 + N / 7) * levelSteps N) + 4 * o.length + d.top.part := by
  induction cs generalizing d sent o with
  | nil =>
    simp only [Decoder.feed, Option.some.injEq, Prod.mk.injEq] at hf
    obtain ⟨rfl, rfl⟩ := hf
    refine ⟨by simpa using h, ?_⟩
    simp [Decoder.callsSteps]
  | cons c cs ih =>
    obtain ⟨L, ns, o1, o2, k1, k2, rfl⟩ := feed_cons_some hf
    rw [← decodeChunk_eq] at k1
    simp only [List.flatten_cons, List.length_append] at hN ⊢
    obtain ⟨s1, s2, s3⟩ := (h.chunk c).1 _ _ _ k1
    have hcall : d.call (.chunk c) = .ok (⟨true, o1⟩, { top := L, nested := ns }) := by simp [Decoder.call, k1]
    obtain ⟨i1, i2⟩ := ih s1 k2 (by show _ + 7 * ns.length + _ ≤ N; omega)
    refine ⟨by rw [← Nat.add_assoc]; exact i1, ?_⟩
    have hs : d.callsSteps ((c :: cs).map .chunk) = d.chunkSteps c + Decoder.callsSteps { top := L, nested := ns } (cs.map .chunk) := by
      simp only [List.map_cons, Decoder.callsSteps, hcall]
    have hm : (d.nested.length + 1 + (heldInput d + c.length) / 7) * levelSteps (heldInput d + c.length) ≤
        (1 + N / 7) * levelSteps N := Nat.mul_le_mul (by omega) (levelSteps_mono (by omega))
    rw [hs, List.length_cons, Nat.succ_mul]
    have e : (({ top := L, nested := ns } : Decoder).top).part = L.part := rfl
    rw [e] at i2
    omega

/-! ### Input that is looked at again -/

/-- A decoder that has read the file header and the first byte of a window and `n` bytes of a number. -/
structure InNumber (n : Nat) (d : Decoder) : Prop where
  fed : Fed d
  leaf : d.nested = []
  cache : d.top.cache ≠ none
  win : d.top.win = none
  bytes : d.top.unparsed = 0 :: List.replicate n 0x80
  decoded : d.top.decoded = []

theorem parseWinIndicator_zero (a b : Nat) (c : Bool) (r : Bytes) : parseWinIndicator a b c (0 :: r) = .ok (0, 0, 0) r := by
  simp [parseWinIndicator, parseByte, Parsed.bind, vcdSource, vcdTarget]
  decide

theorem readHeader_zeros (L : Level) (n : Nat) : readHeader L (0 :: List.replicate n 0x80) = .endOfData := by
  rw [readHeader, parseWinIndicator_zero]
  simp [Parsed.bind, parseSize_zeros]

theorem readHeaderW_zeros (L : Level) (n : Nat) : (readHeaderW L (0 :: List.replicate n 0x80)).2 = 1 + n := by
  have hl : ∀ n, parseVarintLoopW maxVal32 0 (List.replicate n 0x80) = (.endOfData, n) := by
    intro n
    induction n with
    | zero => rfl
    | succ n ih =>
      rw [List.replicate_succ]
      simp [parseVarintLoopW, ih, stepsThen]
      omega
  have hp : parseSizeW (List.replicate n 0x80) = (.endOfData, n) := by
    simp [parseSizeW, parseInt32W, parseVarintW, hl]
  have hw : ∀ r : Bytes, parseWinIndicatorW L.dict.length L.decoded.length L.allowTarget (0 :: r) = (.ok (0, 0, 0) r, 1) := by
    intro r
    have h1 : ¬ ((0 : UInt8) &&& (vcdSource ||| vcdTarget) = vcdSource) := by decide
    have h2 : ¬ ((0 : UInt8) &&& (vcdSource ||| vcdTarget) = vcdTarget) := by decide
    have h3 : ¬ ((0 : UInt8) &&& (vcdSource ||| vcdTarget) = vcdSource ||| vcdTarget) := by decide
    simp only [parseWinIndicatorW, bindW, parseByteW, if_neg h1, if_neg h2, if_neg h3, stepsThen]
  unfold readHeaderW
  rw [hw]
  simp [bindW, hp, stepsThen]

theorem InNumber.start {d : Decoder} (hs : d.top.started = false) (dict : Bytes) :
    ∃ e, (d.start dict).call (.chunk [0xD6, 0xC3, 0xC4, 0, 0, 0]) = .ok (⟨true, []⟩, e) ∧ InNumber 0 e := by
  have hf := Fed.start d hs dict
  have e := start_fresh hs dict
  have hn : (d.start dict).nested = [] := by rw [e]
  have hc : (d.start dict).top.cache = none := by rw [e]; rfl
  have hu : (d.start dict).top.unparsed = [] := by rw [e]; rfl
  obtain ⟨w1, w2, w3, w4, _⟩ := withHeader_inv hf.chain.node hc { version := 0, caches := none }
  have hrun := chunk_plain hf.chain.node hc hu (Or.inl rfl) (by decide : (0 : UInt8) &&& 3 = 0) [0]
  have hd : ((d.start dict).top.withHeader { version := 0, caches := none }).decoded = [] := by rw [e]; rfl
  have hr : readHeader ((d.start dict).top.withHeader { version := 0, caches := none }) [0] = .endOfData := readHeader_zeros _ 0
  rw [decodeChunkWindows_eq, winRun_eq' w1.inv w1.quiet, decodeWindow_none w4, hr] at hrun
  simp only [Level.text, hd, List.drop_nil, List.append_nil] at hrun
  rw [← hn] at hrun
  have hrun : chunkRun (d.start dict).top (d.start dict).nested [0xD6, 0xC3, 0xC4, 0, 0, 0] = _ := hrun
  refine ⟨{ top := ((d.start dict).top.withHeader { version := 0, caches := none }).ended [0], nested := [] }, ?_, ?_⟩
  · simp only [Decoder.call, decodeChunk_eq, hrun]
    rw [hn]
  · have := hf.next hrun
    rw [hn] at this
    exact ⟨this, rfl, by simp [Level.ended, Level.withHeader, Level.setUnparsed, Level.setOut], w4, rfl, hd⟩

theorem InNumber.next {n : Nat} {d : Decoder} (h : InNumber n d) :
    ∃ e, d.call (.chunk [0x80]) = .ok (⟨true, []⟩, e) ∧ InNumber (n + 1) e ∧ n + 2 ≤ d.chunkSteps [0x80] := by
  have hn : NodeInv d.top := h.fed.chain.node
  have hs : d.top.unparsed ++ [0x80] = 0 :: List.replicate (n + 1) 0x80 := by
    rw [h.bytes, List.cons_append, List.replicate_succ']
  have hrun : chunkRun d.top [] [0x80] = .ok (d.top.ended (0 :: List.replicate (n + 1) 0x80)) [] [] := by
    rw [chunkRun_windows hn h.cache, hs, decodeChunkWindows_eq, winRun_eq' hn.inv hn.quiet, decodeWindow_none h.win, readHeader_zeros]
    simp only [Level.text, h.decoded, List.drop_nil, List.append_nil]
  have hcall : d.decodeChunk [0x80] = .ok (d.top.ended (0 :: List.replicate (n + 1) 0x80)) [] [] := by
    rw [decodeChunk_eq, h.leaf, hrun]
  refine ⟨{ top := d.top.ended (0 :: List.replicate (n + 1) 0x80), nested := [] }, by simp only [Decoder.call, hcall],
    ⟨?_, rfl, h.cache, h.win, rfl, h.decoded⟩, ?_⟩
  · rw [← h.leaf] at hrun
    have := h.fed.next hrun
    rw [h.leaf] at this
    exact this
  · have hx : d.chunkSteps [0x80] = (decodeChunkFuelW (d.depthBound [0x80]) d.top [] [0x80]).2 := by
      rw [← h.leaf]; rfl
    have hfu : ∃ f, d.depthBound [0x80] = f + 1 := ⟨d.depthBound [0x80] - 1, by unfold Decoder.depthBound; omega⟩
    obtain ⟨f, hfu⟩ := hfu
    have hr : readHeaderW d.top (0 :: List.replicate (n + 1) 0x80) = (.endOfData, 1 + (n + 1)) := by
      rw [← readHeaderW_zeros d.top (n + 1), ← readHeader_zeros d.top (n + 1), ← readHeaderW_fst]
    have hd : decodeWindowW d.top (0 :: List.replicate (n + 1) 0x80) =
        (.endOfData d.top (0 :: List.replicate (n + 1) 0x80), 1 + (1 + (n + 1))) := by
      unfold decodeWindowW
      rw [h.win]
      simp only [hr]
    rw [hx, hfu, decodeChunkFuelW_succ, if_neg (by rw [hn.started]; simp), hs]
    cases hc : d.top.cache with
    | none => exact absurd hc h.cache
    | some c =>
      have hne : ¬ (0 :: List.replicate (n + 1) (0x80 : UInt8)) = [] := by simp
      simp only [stepsThen_snd, tableStepW, decodeChunkWindowsW, windowLoopW, hd, if_neg hne]
      omega

theorem InNumber.calls {n : Nat} {d : Decoder} (h : InNumber n d) (k : Nat) :
    ∃ e rs, d.calls (List.replicate k (.chunk [0x80])) = .ok (rs, e) ∧ (∀ r ∈ rs, r = ⟨true, []⟩) ∧
      k * n + k * (k + 1) / 2 ≤ d.callsSteps (List.replicate k (.chunk [0x80])) := by
  induction k generalizing n d with
  | zero => exact ⟨d, [], rfl, by simp, by simp⟩
  | succ k ih =>
    obtain ⟨e, h1, h2, h3⟩ := h.next
    obtain ⟨e', rs, i1, i2, i3⟩ := ih h2
    refine ⟨e', ⟨true, []⟩ :: rs, ?_, ?_, ?_⟩
    · simp only [List.replicate_succ, Decoder.calls, h1, i1]
    · intro r hr
      rcases List.mem_cons.1 hr with rfl | hr
      · rfl
      · exact i2 r hr
    · simp only [List.replicate_succ, Decoder.callsSteps, h1]
      have e1 : (k + 1) * (k + 1 + 1) = k * (k + 1) + 2 * (k + 1) := by
        rw [Nat.succ_mul, Nat.mul_succ]; omega
      have e2 : k * (n + 1) = k * n + k := Nat.mul_succ _ _
      rw [e1, Nat.succ_mul]
      omega

end Vcd
