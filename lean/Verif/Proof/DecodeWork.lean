import Verif.Model.DecodeWork
import Verif.Proof.Debug

/-!
# The work done by the decoder
-/

namespace Vcd
open Spec

@[simp] theorem stepsThen_fst {α : Type} (n : Nat) (x : α × Nat) : (stepsThen n x).1 = x.1 := rfl
@[simp] theorem stepsThen_snd {α : Type} (n : Nat) (x : α × Nat) : (stepsThen n x).2 = n + x.2 := rfl

/-! ### Without the numbers they are the same functions -/

theorem parseVarintLoopW_fst (m r : Nat) (s : Bytes) : (parseVarintLoopW m r s).1 = parseVarintLoop m r s := by
  induction s generalizing r with
  | nil => rfl
  | cons b bs ih =>
    unfold parseVarintLoopW parseVarintLoop
    dsimp only
    split
    · rfl
    · split
      · rfl
      · exact ih _

theorem parseVarintW_fst (m : Nat) (s : Bytes) : (parseVarintW m s).1 = parseVarint m s := parseVarintLoopW_fst m 0 s

theorem bindW_fst {α β : Type} {p : Parsed α × Nat} {q : Parsed α} {f : α → Bytes → Parsed β × Nat} {g : α → Bytes → Parsed β}
    (h : p.1 = q) (hf : ∀ v r, (f v r).1 = g v r) : (bindW p f).1 = q.bind g := by
  subst h
  unfold bindW Parsed.bind
  split <;> simp_all

theorem parseByteW_fst (s : Bytes) : (parseByteW s).1 = parseByte s := by cases s <;> rfl

theorem parseInt32W_fst (s : Bytes) : (parseInt32W s).1 = parseInt32 s := by
  unfold parseInt32W parseInt32 parseVarint32
  rw [← parseVarintW_fst]
  rcases parseVarintW maxVal32 s with ⟨r, n⟩
  cases r <;> rfl

theorem parseUInt32W_fst (s : Bytes) : (parseUInt32W s).1 = parseUInt32 s := by
  unfold parseUInt32W parseUInt32 parseVarint64
  rw [← parseVarintW_fst]
  rcases parseVarintW maxVal64 s with ⟨r, n⟩
  cases r <;> rfl

theorem parseSizeW_fst (s : Bytes) : (parseSizeW s).1 = parseSize s := parseInt32W_fst s

theorem parseSourceSegmentW_fst (n : Nat) (s : Bytes) : (parseSourceSegmentW n s).1 = parseSourceSegment n s := by
  unfold parseSourceSegmentW parseSourceSegment
  refine bindW_fst (parseSizeW_fst s) fun len s => ?_
  split
  · rfl
  · refine bindW_fst (parseSizeW_fst s) fun pos s => ?_
    split
    · rfl
    · split <;> rfl

theorem parseWinIndicatorW_fst (n m : Nat) (a : Bool) (s : Bytes) :
    (parseWinIndicatorW n m a s).1 = parseWinIndicator n m a s := by
  unfold parseWinIndicatorW parseWinIndicator
  refine bindW_fst (parseByteW_fst s) fun ind s => ?_
  dsimp only
  split
  · exact bindW_fst (parseSourceSegmentW_fst _ s) fun lp s => rfl
  · split
    · split
      · rfl
      · exact bindW_fst (parseSourceSegmentW_fst _ s) fun lp s => rfl
    · split <;> rfl

theorem parseDeltaIndicatorW_fst (s : Bytes) : (parseDeltaIndicatorW s).1 = parseDeltaIndicator s := by
  unfold parseDeltaIndicatorW parseDeltaIndicator
  refine bindW_fst (parseByteW_fst s) fun b s => ?_
  split <;> rfl

theorem parseSectionLengthsW_fst (c : Bool) (n : Nat) (d s : Bytes) :
    (parseSectionLengthsW c n d s).1 = parseSectionLengths c n d s := by
  unfold parseSectionLengthsW parseSectionLengths
  refine bindW_fst (parseSizeW_fst s) fun dl s => ?_
  refine bindW_fst (parseSizeW_fst s) fun il s => ?_
  refine bindW_fst (parseSizeW_fst s) fun al s => ?_
  refine bindW_fst ?_ fun ck s => ?_
  · split
    · exact bindW_fst (parseUInt32W_fst s) fun c s => rfl
    · rfl
  · dsimp only
    split <;> rfl

theorem readHeaderW_fst (L : Level) (s : Bytes) : (readHeaderW L s).1 = readHeader L s := by
  unfold readHeaderW readHeader
  refine bindW_fst (parseWinIndicatorW_fst _ _ _ s) fun isp s => ?_
  refine bindW_fst (parseSizeW_fst s) fun dl s => ?_
  refine bindW_fst (parseSizeW_fst s) fun tl s => ?_
  split
  · rfl
  · refine bindW_fst (parseDeltaIndicatorW_fst s) fun _ s => ?_
    refine bindW_fst (parseSectionLengthsW_fst _ _ _ s) fun lens s => ?_
    dsimp only
    split <;> rfl

theorem fetchHalfW_fst (t : CodeTable) (s : Bytes) (p : Option UInt8) : (fetchHalfW t s p).1 = fetchHalf t s p := by
  induction s generalizing p with
  | nil => cases p <;> rfl
  | cons op s ih =>
    cases p with
    | some op => rfl
    | none =>
      unfold fetchHalfW fetchHalf
      dsimp only
      split
      · exact ih _
      · rfl

theorem getNextInstructionW_fst (t : CodeTable) (p : Option UInt8) (s : Bytes) :
    (getNextInstructionW t p s).1 = getNextInstruction t p s := by
  unfold getNextInstructionW getNextInstruction parseVarint32
  rw [← fetchHalfW_fst]
  rcases fetchHalfW t s p with ⟨_ | ⟨h, p', s'⟩, n⟩
  · rfl
  · dsimp only
    split
    · rw [← parseVarintW_fst]
      rcases parseVarintW maxVal32 s' with ⟨r, m⟩
      cases r <;> rfl
    · rfl

theorem decodeAddressW_fst (c : AddrCache) (here : Int) (mode : Nat) (s : Bytes) :
    (c.decodeAddressW here mode s).1 = c.decodeAddress here mode s := by
  unfold AddrCache.decodeAddressW AddrCache.decodeAddress parseVarint32
  split
  · rfl
  · cases s with
    | nil => rfl
    | cons b bs =>
      dsimp only
      rw [← parseVarintW_fst]
      split
      · cases c.same[(mode - c.firstSameMode) * 256 + b.toNat]? <;> rfl
      · rcases parseVarintW maxVal32 (b :: bs) with ⟨r, m⟩
        cases r with
        | error => rfl
        | endOfData => rfl
        | ok enc rest =>
          dsimp only
          split
          · rfl
          · split
            · rfl
            · split
              · cases c.near[mode - 2]? with
                | none => rfl
                | some a => dsimp only; split <;> rfl
              · rfl

theorem copyTargetW_fst (env : BodyEnv) (fuel : Nat) (d : Bytes) (a t n : Nat) :
    (copyTargetW env fuel d a t n).1 = copyTarget env fuel d a t n := by
  induction fuel generalizing d a t n with
  | zero => rfl
  | succ fuel ih =>
    unfold copyTargetW copyTarget
    split
    · dsimp only
      cases readRange d (env.startPos + a) (szSub t a) with
      | error f => rfl
      | ok bytes =>
        change _ = (appendTarget env d bytes).bind _
        dsimp only
        cases appendTarget env d bytes with
        | error f => rfl
        | ok d => exact ih _ _ _ _
    · rfl

theorem copyBytesW_fst (env : BodyEnv) (d : Bytes) (t a n : Nat) : (copyBytesW env d t a n).1 = copyBytes env d t a n := by
  unfold copyBytesW copyBytes
  split
  · rfl
  · split
    · dsimp only
      cases readRange env.hdr.source a (env.hdr.srcLen - a) with
      | error f => rfl
      | ok bytes =>
        change (match appendTarget env d bytes with | .error f => _ | .ok decoded => _ : Except Fault Bytes × Nat).1 =
          (appendTarget env d bytes).bind _
        cases appendTarget env d bytes with
        | error f => rfl
        | ok d => exact copyTargetW_fst _ _ _ _ _ _
    · exact copyTargetW_fst _ _ _ _ _ _

theorem executeW_fst (env : BodyEnv) (b : Body) (ty : UInt8) (n : Nat) (m : UInt8) (s : Bytes) :
    (executeW env b ty n m s).1 = execute env b ty n m s := by
  unfold executeW execute
  dsimp only
  split
  · generalize (if env.hdr.interleaved = true then s else b.data) = o
    unfold decodeAddW decodeAdd
    split <;> rfl
  split
  · generalize (if env.hdr.interleaved = true then s else b.data) = o
    cases o <;> rfl
  split
  · unfold decodeCopyW decodeCopy
    dsimp only
    rw [← decodeAddressW_fst]
    generalize AddrCache.decodeAddressW _ _ _ _ = x
    rcases x with ⟨r, k⟩
    cases r with
    | ok a r c => dsimp only; rw [copyBytesW_fst]
    | _ => rfl
  · rfl

theorem bodyLoopW_fst (env : BodyEnv) (fuel : Nat) (b : Body) : (bodyLoopW env fuel b).1 = bodyLoop env fuel b := by
  induction fuel generalizing b with
  | zero => rfl
  | succ fuel ih =>
    unfold bodyLoopW bodyLoop
    dsimp only
    rw [← getNextInstructionW_fst]
    split
    · rcases getNextInstructionW env.table b.pending b.inst with ⟨r, n⟩
      cases r with
      | endOfData r p => rfl
      | error => rfl
      | inst ty sz m r p =>
        dsimp only
        rw [← executeW_fst]
        split
        · rfl
        · rcases executeW env b ty sz m r with ⟨x, k⟩
          cases x with
          | ok r c d => exact ih _
          | _ => rfl
    · rfl

theorem decodeBodyW_fst (env : BodyEnv) (b : Body) : (decodeBodyW env b).1 = decodeBody env b := by
  unfold decodeBodyW decodeBody
  rw [← bodyLoopW_fst]
  rcases bodyLoopW env (2 * b.inst.length + 2) b with ⟨r, n⟩
  cases r with
  | ok b =>
    dsimp only
    split
    · rfl
    split
    · rfl
    split
    · rfl
    split
    · rfl
    split
    · rfl
    split <;> rfl
  | _ => rfl

theorem decodeWindowBodyW_fst (L : Level) (w : OpenWindow) (c : AddrCache) (s : Bytes) :
    (decodeWindowBodyW L w c s).1 = decodeWindowBody L w c s := by
  unfold decodeWindowBodyW decodeWindowBody
  dsimp only
  rw [← decodeBodyW_fst, ← decodeBodyW_fst]
  split
  · generalize decodeBodyW _ _ = x
    rcases x with ⟨r, n⟩
    cases r with
    | endOfData b => dsimp only; split <;> rfl
    | _ => rfl
  · generalize decodeBodyW _ _ = x
    rcases x with ⟨r, n⟩
    cases r <;> rfl

theorem decodeWindowW_fst (L : Level) (s : Bytes) : (decodeWindowW L s).1 = decodeWindow L s := by
  unfold decodeWindowW decodeWindow
  cases L.win with
  | none =>
    dsimp only
    rw [← readHeaderW_fst]
    rcases readHeaderW L s with ⟨r, n⟩
    cases r with
    | ok hdr rest =>
      dsimp only
      cases L.cache with
      | none => rfl
      | some c =>
        simp only [Option.bind_some]
        cases c.init with
        | none => rfl
        | some c => exact decodeWindowBodyW_fst _ _ _ _
    | _ => rfl
  | some w =>
    dsimp only
    split
    · rfl
    · cases L.cache with
      | none => rfl
      | some c => exact decodeWindowBodyW_fst _ _ _ _

theorem readFileHeaderW_fst (s : Bytes) : (readFileHeaderW s).1 = readFileHeader s := by
  unfold readFileHeaderW readFileHeader
  cases checkMagic s with
  | none => rfl
  | some x =>
    cases x with
    | false => rfl
    | true =>
      simp only [stepsThen_fst]
      split
      · rfl
      split
      · refine bindW_fst (parseInt32W_fst _) fun near rest => ?_
        refine bindW_fst (parseInt32W_fst _) fun same rest => ?_
        split
        · rfl
        · split <;> rfl
      · rfl

theorem windowLoopW_fst (fuel : Nat) (L : Level) (s out : Bytes) : (windowLoopW fuel L s out).1 = windowLoop fuel L s out := by
  induction fuel generalizing L s out with
  | zero => rfl
  | succ fuel ih =>
    unfold windowLoopW windowLoop
    rw [← decodeWindowW_fst]
    split
    · rfl
    · rcases decodeWindowW L s with ⟨r, n⟩
      cases r with
      | ok L' r =>
        dsimp only
        split
        · rfl
        split
        · exact ih _ _ _
        · exact ih _ _ _
      | _ => rfl

theorem endChunkW_fst (L : Level) (ns : List Level) (r o : Bytes) : (endChunkW L ns r o).1 = endChunk L ns r o := rfl

theorem decodeChunkWindowsW_fst (L : Level) (s : Bytes) : (decodeChunkWindowsW L s).1 = decodeChunkWindows L s := by
  unfold decodeChunkWindowsW decodeChunkWindows
  rw [← windowLoopW_fst]
  rcases windowLoopW (s.length + 2) L s [] with ⟨r, n⟩
  cases r <;> rfl

theorem afterCodeTableChunkW_fst (L n : Level) (ns : List Level) (s text : Bytes) :
    (afterCodeTableChunkW L n ns s text).1 = afterCodeTableChunk L n ns s text := by
  unfold afterCodeTableChunkW afterCodeTableChunk
  dsimp only
  split
  · rfl
  split
  · rfl
  split
  · split
    · rfl
    · exact decodeChunkWindowsW_fst _ _
  · rfl

theorem decodeChunkFuelW_fst (fuel : Nat) (L : Level) (ns : List Level) (data : Bytes) :
    (decodeChunkFuelW fuel L ns data).1 = decodeChunkFuel fuel L ns data := by
  induction fuel generalizing L ns data with
  | zero => rfl
  | succ fuel ih =>
    have ht : ∀ (L : Level) (ns : List Level) (s : Bytes),
        (match ns with
        | [] => decodeChunkWindowsW L s
        | n :: ns =>
          match decodeChunkFuelW fuel n ns s with
          | (.fault f, k) => (.fault f, k)
          | (.error _ _, k) => (.error ({ L with unparsed := [], decoded := [] } : Level).reset [], k)
          | (.ok n' ns' text, k) => stepsThen k (afterCodeTableChunkW L n' ns' s text) : ChunkResult × Nat).1 =
        (match ns with
        | [] => decodeChunkWindows L s
        | n :: ns =>
          match decodeChunkFuel fuel n ns s with
          | .fault f => .fault f
          | .error _ _ => .error ({ L with unparsed := [], decoded := [] } : Level).reset []
          | .ok n' ns' text => afterCodeTableChunk L n' ns' s text) := by
      intro L ns s
      cases ns with
      | nil => exact decodeChunkWindowsW_fst L s
      | cons n ns =>
        dsimp only
        rw [← ih]
        rcases decodeChunkFuelW fuel n ns s with ⟨r, k⟩
        cases r with
        | ok n' ns' text => exact afterCodeTableChunkW_fst _ _ _ _ _
        | _ => rfl
    unfold decodeChunkFuelW decodeChunkFuel
    split
    · rfl
    · simp only [stepsThen_fst]
      cases L.cache with
      | some c => exact ht _ _ _
      | none =>
        dsimp only
        rw [← readFileHeaderW_fst]
        rcases readFileHeaderW (L.unparsed ++ data) with ⟨r, k⟩
        cases r with
        | error => rfl
        | endOfData => rfl
        | ok hdr rest =>
          simp only [stepsThen_fst]
          cases hdr.caches with
          | none => exact ht _ _ _
          | some p =>
            exact ht { L with version := hdr.version, cache := some (AddrCache.new p.1 p.2), tableString := [] }
              [Level.forCodeTable] rest

theorem decodeChunkW_fst (d : Decoder) (data : Bytes) : (d.decodeChunkW data).1 = d.decodeChunk data :=
  decodeChunkFuelW_fst _ _ _ _

/-! ### Parsing -/

/-- A parser that has taken at most one step for each byte it has passed. -/
def ReadsAt {α : Type} (x : Parsed α × Nat) (s : Bytes) : Prop :=
  x.2 ≤ s.length ∧ ∀ v r, x.1 = .ok v r → x.2 + r.length ≤ s.length

theorem ReadsAt.pure {α : Type} (v : α) (s : Bytes) : ReadsAt (.ok v s, 0) s :=
  ⟨Nat.zero_le _, fun _ _ h => by simp only [Parsed.ok.injEq] at h; simp [h.2]⟩

theorem ReadsAt.err {α : Type} (s : Bytes) : ReadsAt ((.error, 0) : Parsed α × Nat) s :=
  ⟨Nat.zero_le _, fun _ _ h => by simp at h⟩

theorem ReadsAt.eod {α : Type} (s : Bytes) : ReadsAt ((.endOfData, 0) : Parsed α × Nat) s :=
  ⟨Nat.zero_le _, fun _ _ h => by simp at h⟩

theorem ReadsAt.bind {α β : Type} {x : Parsed α × Nat} {s : Bytes} {f : α → Bytes → Parsed β × Nat} (h : ReadsAt x s)
    (hf : ∀ v r, ReadsAt (f v r) r) : ReadsAt (bindW x f) s := by
  rcases x with ⟨x, n⟩
  obtain ⟨h1, h2⟩ := h
  unfold bindW
  cases x with
  | endOfData => exact ⟨h1, fun _ _ h => by simp at h⟩
  | error => exact ⟨h1, fun _ _ h => by simp at h⟩
  | ok v r =>
    have h3 := h2 v r rfl
    obtain ⟨h4, h5⟩ := hf v r
    dsimp only at h1 h2 h3
    refine ⟨?_, fun v' r' h => ?_⟩
    · simp only [stepsThen_snd]; omega
    · have := h5 v' r' h
      simp only [stepsThen_snd]; omega

theorem parseVarintLoopW_steps (m acc : Nat) (s : Bytes) : (parseVarintLoopW m acc s).2 ≤ s.length ∧
    ∀ v r, (parseVarintLoopW m acc s).1 = .ok v r → (parseVarintLoopW m acc s).2 + r.length ≤ s.length := by
  induction s generalizing acc with
  | nil => exact ⟨Nat.le_refl _, fun _ _ h => by simp [parseVarintLoopW] at h⟩
  | cons b bs ih =>
    unfold parseVarintLoopW
    dsimp only
    split
    · refine ⟨by simp, fun v r h => ?_⟩
      simp only [ParseResult.ok.injEq] at h
      rw [← h.2, List.length_cons]; dsimp only; omega
    · split
      · exact ⟨by simp, fun v r h => by simp at h⟩
      · obtain ⟨h1, h2⟩ := ih ((acc + (b &&& 0x7F).toNat) <<< 7)
        refine ⟨?_, fun v r h => ?_⟩
        · simp only [stepsThen_snd, List.length_cons]; omega
        · have := h2 v r h
          simp only [stepsThen_snd, List.length_cons]; omega

theorem ReadsAt.int32 (s : Bytes) : ReadsAt (parseInt32W s) s := by
  have h := parseVarintLoopW_steps maxVal32 0 s
  unfold parseInt32W parseVarintW
  rcases hx : parseVarintLoopW maxVal32 0 s with ⟨r, n⟩
  rw [hx] at h
  cases r with
  | ok v r =>
    refine ⟨h.1, fun v' r' e => ?_⟩
    simp only [Parsed.ok.injEq] at e
    rw [← e.2]; exact h.2 v r rfl
  | _ => exact ⟨h.1, fun _ _ e => by simp at e⟩

theorem ReadsAt.size (s : Bytes) : ReadsAt (parseSizeW s) s := ReadsAt.int32 s

theorem ReadsAt.uint32 (s : Bytes) : ReadsAt (parseUInt32W s) s := by
  have h := parseVarintLoopW_steps maxVal64 0 s
  unfold parseUInt32W parseVarintW
  rcases hx : parseVarintLoopW maxVal64 0 s with ⟨r, n⟩
  rw [hx] at h
  cases r with
  | ok v r =>
    refine ⟨h.1, fun v' r' e => ?_⟩
    dsimp only at e
    split at e
    · simp at e
    · simp only [Parsed.ok.injEq] at e
      rw [← e.2]; exact h.2 v r rfl
  | _ => exact ⟨h.1, fun _ _ e => by simp at e⟩

theorem ReadsAt.byte (s : Bytes) : ReadsAt (parseByteW s) s := by
  cases s with
  | nil => exact ReadsAt.eod _
  | cons b s =>
    refine ⟨by simp [parseByteW], fun v r h => ?_⟩
    simp only [parseByteW, Parsed.ok.injEq] at h
    rw [← h.2, List.length_cons, parseByteW]; dsimp only; omega

theorem ReadsAt.sourceSegment (n : Nat) (s : Bytes) : ReadsAt (parseSourceSegmentW n s) s := by
  unfold parseSourceSegmentW
  refine (ReadsAt.size s).bind fun len s => ?_
  split
  · exact .err _
  · refine (ReadsAt.size s).bind fun pos s => ?_
    split
    · exact .err _
    · split
      · exact .err _
      · exact .pure _ _

theorem ReadsAt.winIndicator (n m : Nat) (a : Bool) (s : Bytes) : ReadsAt (parseWinIndicatorW n m a s) s := by
  unfold parseWinIndicatorW
  refine (ReadsAt.byte s).bind fun ind s => ?_
  dsimp only
  split
  · exact (ReadsAt.sourceSegment _ s).bind fun lp s => .pure _ _
  · split
    · split
      · exact .err _
      · exact (ReadsAt.sourceSegment _ s).bind fun lp s => .pure _ _
    · split
      · exact .err _
      · exact .pure _ _

theorem ReadsAt.deltaIndicator (s : Bytes) : ReadsAt (parseDeltaIndicatorW s) s := by
  unfold parseDeltaIndicatorW
  refine (ReadsAt.byte s).bind fun b s => ?_
  split
  · exact .err _
  · exact .pure _ _

theorem ReadsAt.sectionLengths (c : Bool) (n : Nat) (d s : Bytes) : ReadsAt (parseSectionLengthsW c n d s) s := by
  unfold parseSectionLengthsW
  refine (ReadsAt.size s).bind fun dl s => ?_
  refine (ReadsAt.size s).bind fun il s => ?_
  refine (ReadsAt.size s).bind fun al s => ?_
  refine ReadsAt.bind ?_ fun ck s => ?_
  · split
    · exact (ReadsAt.uint32 s).bind fun c s => .pure _ _
    · exact .pure _ _
  · dsimp only
    split
    · exact .err _
    · exact .pure _ _

theorem ReadsAt.header (L : Level) (s : Bytes) : ReadsAt (readHeaderW L s) s := by
  unfold readHeaderW
  refine (ReadsAt.winIndicator _ _ _ s).bind fun isp s => ?_
  refine (ReadsAt.size s).bind fun dl s => ?_
  refine (ReadsAt.size s).bind fun tl s => ?_
  split
  · exact .err _
  · refine (ReadsAt.deltaIndicator s).bind fun _ s => ?_
    refine (ReadsAt.sectionLengths _ _ _ s).bind fun lens s => ?_
    dsimp only
    split
    · exact .eod _
    · exact .pure _ _

theorem ReadsAt.fileHeader (s : Bytes) : ReadsAt (readFileHeaderW s) s := by
  unfold readFileHeaderW
  have hm : min s.length 5 ≤ s.length := Nat.min_le_left _ _
  cases hc : checkMagic s with
  | none => exact ⟨hm, fun _ _ h => by simp at h⟩
  | some x =>
    cases x with
    | false => exact ⟨hm, fun _ _ h => by simp at h⟩
    | true =>
      have key : ∀ x : Parsed FileHeader × Nat, ReadsAt x (s.drop 5) → ReadsAt (stepsThen (min s.length 5) x) s := by
        rintro x ⟨h1, h2⟩
        rw [List.length_drop] at h1
        refine ⟨?_, fun v r h => ?_⟩
        · simp only [stepsThen_snd]; omega
        · have := h2 v r h
          rw [List.length_drop] at this
          simp only [stepsThen_snd]; omega
      dsimp only
      refine key _ ?_
      split
      · exact .err _
      split
      · refine (ReadsAt.int32 _).bind fun near rest => ?_
        refine (ReadsAt.int32 _).bind fun same rest => ?_
        split
        · exact .err _
        · split
          · exact .err _
          · exact .pure _ _
      · exact .pure _ _

theorem fetchHalfW_steps (t : CodeTable) (s : Bytes) (p : Option UInt8) : (fetchHalfW t s p).2 ≤ s.length + 1 ∧
    ∀ h p' r, (fetchHalfW t s p).1 = some (h, p', r) →
      (fetchHalfW t s p).2 + 2 * r.length + pendingBit p' ≤ 2 * s.length + pendingBit p := by
  induction s generalizing p with
  | nil =>
    cases p with
    | none => exact ⟨by simp [fetchHalfW], fun h p' r e => by simp [fetchHalfW] at e⟩
    | some op =>
      refine ⟨by simp [fetchHalfW], fun h p' r e => ?_⟩
      simp only [fetchHalfW, Option.some.injEq, Prod.mk.injEq] at e
      rw [← e.2.2, ← e.2.1]; simp [fetchHalfW, pendingBit]
  | cons op s ih =>
    cases p with
    | some op =>
      refine ⟨by simp [fetchHalfW], fun h p' r e => ?_⟩
      simp only [fetchHalfW, Option.some.injEq, Prod.mk.injEq] at e
      rw [← e.2.2, ← e.2.1]; simp [fetchHalfW, pendingBit]; omega
    | none =>
      unfold fetchHalfW
      dsimp only
      split
      · obtain ⟨h1, h2⟩ := ih (if (t.second op).inst ≠ vcdNoop then some op else none)
        have h0 := pendingBit_le (if (t.second op).inst ≠ vcdNoop then some op else none)
        refine ⟨?_, fun h p' r e => ?_⟩
        · simp only [stepsThen_snd, List.length_cons]; omega
        · have h3 := h2 h p' r e
          simp only [stepsThen_snd, List.length_cons]
          omega
      · refine ⟨by simp, fun h p' r e => ?_⟩
        simp only [Option.some.injEq, Prod.mk.injEq] at e
        have h0 := pendingBit_le p'
        rw [← e.2.2, List.length_cons]; dsimp only; omega

theorem fetchHalfW_pos (t : CodeTable) (s : Bytes) (p : Option UInt8) : 1 ≤ (fetchHalfW t s p).2 := by
  cases s <;> cases p <;> unfold fetchHalfW
  · simp
  · simp
  · dsimp only
    split
    · simp only [stepsThen_snd]; omega
    · simp
  · simp

theorem getNextInstructionW_pos (t : CodeTable) (p : Option UInt8) (s : Bytes) : 1 ≤ (getNextInstructionW t p s).2 := by
  have h := fetchHalfW_pos t s p
  unfold getNextInstructionW
  rcases hx : fetchHalfW t s p with ⟨x, n⟩
  rw [hx] at h
  rcases x with _ | ⟨h, p', r⟩
  · exact h
  · dsimp only at h ⊢
    split
    · rcases parseVarintW maxVal32 r with ⟨y, m⟩
      cases y <;> (dsimp only; omega)
    · exact h

theorem getNextInstructionW_steps (t : CodeTable) (p : Option UInt8) (s : Bytes) :
    (getNextInstructionW t p s).2 ≤ 2 * s.length + 1 ∧
    ∀ ty sz m r p', (getNextInstructionW t p s).1 = .inst ty sz m r p' →
      (getNextInstructionW t p s).2 + 2 * r.length + pendingBit p' ≤ 2 * s.length + pendingBit p := by
  obtain ⟨h1, h2⟩ := fetchHalfW_steps t s p
  have hb := pendingBit_le p
  unfold getNextInstructionW
  rcases hx : fetchHalfW t s p with ⟨x, n⟩
  rw [hx] at h1 h2
  rcases x with _ | ⟨h, p', r⟩
  · exact ⟨by dsimp only; omega, fun _ _ _ _ _ e => by simp at e⟩
  · have h3 := h2 h p' r rfl
    dsimp only
    split
    · have hv := parseVarintLoopW_steps maxVal32 0 r
      unfold parseVarintW
      rcases hx : parseVarintLoopW maxVal32 0 r with ⟨y, m⟩
      rw [hx] at hv
      cases y with
      | ok v r' =>
        have := hv.2 v r' rfl
        refine ⟨by dsimp only; omega, fun ty sz md r2 p2 e => ?_⟩
        simp only [NextInstruction.inst.injEq] at e
        rw [← e.2.2.2.1, ← e.2.2.2.2]; dsimp only; omega
      | _ =>
        have := hv.1
        exact ⟨by dsimp only; omega, fun _ _ _ _ _ e => by simp at e⟩
    · refine ⟨by dsimp only; omega, fun ty sz md r2 p2 e => ?_⟩
      simp only [NextInstruction.inst.injEq] at e
      rw [← e.2.2.2.1, ← e.2.2.2.2]; exact h3

theorem commitDecoded_rest {c c' : AddrCache} {here d : Int} {r r' : Bytes} {a : Nat} (h : c.commitDecoded here d r = .ok a r' c') :
    r' = r := by
  unfold AddrCache.commitDecoded at h
  split at h
  · simp at h
  · split at h
    · simp at h
    · split at h
      · simp at h
      · simp only [AddrCache.DecodeResult.ok.injEq] at h; exact h.2.1.symm

theorem decodeAddressW_steps (c : AddrCache) (here : Int) (mode : Nat) (s : Bytes) :
    (c.decodeAddressW here mode s).2 ≤ s.length ∧
    ∀ a r c', (c.decodeAddressW here mode s).1 = .ok a r c' → (c.decodeAddressW here mode s).2 + r.length ≤ s.length := by
  unfold AddrCache.decodeAddressW
  split
  · exact ⟨Nat.zero_le _, fun _ _ _ h => by simp at h⟩
  · cases s with
    | nil => exact ⟨Nat.zero_le _, fun _ _ _ h => by simp at h⟩
    | cons b bs =>
      dsimp only
      split
      · cases c.same[(mode - c.firstSameMode) * 256 + b.toNat]? with
        | none => exact ⟨by simp, fun _ _ _ h => by simp at h⟩
        | some a =>
          dsimp only
          refine ⟨by simp, fun _ _ _ h => ?_⟩
          rw [commitDecoded_rest h, List.length_cons]; omega
      · have hv := parseVarintLoopW_steps maxVal32 0 (b :: bs)
        unfold parseVarintW
        rcases hx : parseVarintLoopW maxVal32 0 (b :: bs) with ⟨y, m⟩
        rw [hx] at hv
        cases y with
        | ok v r' =>
          have h1 := hv.2 v r' rfl
          dsimp only
          split
          · exact ⟨hv.1, fun _ _ _ h => by dsimp only at h; rw [commitDecoded_rest h]; exact h1⟩
          split
          · exact ⟨hv.1, fun _ _ _ h => by dsimp only at h; rw [commitDecoded_rest h]; exact h1⟩
          split
          · cases c.near[mode - 2]? with
            | none => exact ⟨hv.1, fun _ _ _ h => by simp at h⟩
            | some a =>
              dsimp only
              split
              · exact ⟨hv.1, fun _ _ _ h => by simp at h⟩
              · exact ⟨hv.1, fun _ _ _ h => by dsimp only at h; rw [commitDecoded_rest h]; exact h1⟩
          · exact ⟨hv.1, fun _ _ _ h => by simp at h⟩
        | _ => exact ⟨hv.1, fun _ _ _ h => by simp at h⟩

/-! ### Instructions -/

theorem appendTarget_length {env : BodyEnv} {d b d' : Bytes} (h : appendTarget env d b = .ok d') :
    d'.length = d.length + b.length := by
  unfold appendTarget at h
  split at h
  · simp at h
  · simp only [Except.ok.injEq] at h
    rw [← h, List.length_append]

theorem readRange_length {b r : Bytes} {p n : Nat} (h : readRange b p n = .ok r) : r.length = n := by
  unfold readRange at h
  split at h
  · simp at h
  · simp only [Except.ok.injEq] at h
    rw [← h, List.length_take, List.length_drop]; omega

theorem copyTargetW_steps (env : BodyEnv) (fuel : Nat) (d : Bytes) (a t n : Nat) :
    (copyTargetW env fuel d a t n).2 ≤ fuel + n ∧
    ∀ d', (copyTargetW env fuel d a t n).1 = .ok d' → d'.length = d.length + n := by
  induction fuel generalizing d a t n with
  | zero => exact ⟨Nat.zero_le _, fun _ h => by simp [copyTargetW] at h⟩
  | succ fuel ih =>
    unfold copyTargetW
    split
    · rename_i hn
      dsimp only
      cases hr : readRange d (env.startPos + a) (szSub t a) with
      | error f => exact ⟨by dsimp only; omega, fun _ h => by simp at h⟩
      | ok bytes =>
        dsimp only
        cases ha : appendTarget env d bytes with
        | error f => exact ⟨by dsimp only; omega, fun _ h => by simp at h⟩
        | ok d1 =>
          have h1 := readRange_length hr
          have h2 := appendTarget_length ha
          obtain ⟨h3, h4⟩ := ih d1 (a + szSub t a) (t + szSub t a) (n - szSub t a)
          refine ⟨?_, fun d' h => ?_⟩
          · simp only [stepsThen_snd]; omega
          · have := h4 d' h
            omega
    · refine ⟨by dsimp only; omega, fun d' h => ?_⟩
      dsimp only at h
      cases hr : readRange d (env.startPos + a) n with
      | error f => rw [hr] at h; simp [bind, Except.bind] at h
      | ok bytes =>
        rw [hr] at h
        have := appendTarget_length (h : appendTarget env d bytes = .ok d')
        rw [this, readRange_length hr]

theorem copyBytesW_steps (env : BodyEnv) (d : Bytes) (t a n : Nat) :
    (copyBytesW env d t a n).2 ≤ 2 * n + 1 ∧
    ∀ d', (copyBytesW env d t a n).1 = .ok d' → d'.length = d.length + n := by
  unfold copyBytesW
  split
  · refine ⟨by dsimp only; omega, fun d' h => ?_⟩
    dsimp only at h
    cases hr : readRange env.hdr.source a n with
    | error f => rw [hr] at h; simp [bind, Except.bind] at h
    | ok bytes =>
      rw [hr] at h
      have := appendTarget_length (h : appendTarget env d bytes = .ok d')
      rw [this, readRange_length hr]
  split
  · dsimp only
    cases hr : readRange env.hdr.source a (env.hdr.srcLen - a) with
    | error f => exact ⟨by simp only [bind, Except.bind]; omega, fun d' h => by simp [bind, Except.bind] at h⟩
    | ok bytes =>
      simp only [bind, Except.bind]
      cases ha : appendTarget env d bytes with
      | error f => exact ⟨by dsimp only; omega, fun d' h => by simp at h⟩
      | ok d1 =>
        have h1 := readRange_length hr
        have h2 := appendTarget_length ha
        obtain ⟨h3, h4⟩ := copyTargetW_steps env (n - (env.hdr.srcLen - a) + 1) d1 0 (t + (env.hdr.srcLen - a)) (n - (env.hdr.srcLen - a))
        refine ⟨?_, fun d' h => ?_⟩
        · simp only [stepsThen_snd]; omega
        · have := h4 d' h
          omega
  · obtain ⟨h3, h4⟩ := copyTargetW_steps env (n + 1) d (a - env.hdr.srcLen) t n
    exact ⟨by omega, h4⟩

/-- The stream an instruction takes its operands from. -/
def operandsW (env : BodyEnv) (b : Body) (ty : UInt8) (s : Bytes) : Bytes :=
  if env.hdr.interleaved then s else if ty = vcdCopy then b.addr else b.data

theorem executeW_steps (env : BodyEnv) (b : Body) (ty : UInt8) (sz : Nat) (m : UInt8) (s : Bytes) :
    (executeW env b ty sz m s).2 ≤ (operandsW env b ty s).length + 2 * sz + 1 ∧
    ((executeW env b ty sz m s).1 = .endOfData → (executeW env b ty sz m s).2 ≤ (operandsW env b ty s).length) ∧
    ∀ r c d, (executeW env b ty sz m s).1 = .ok r c d → d.length = b.decoded.length + sz ∧
      r.length ≤ (operandsW env b ty s).length ∧
      (executeW env b ty sz m s).2 + r.length ≤ (operandsW env b ty s).length + 2 * sz + 1 := by
  have hof : ∀ {x : Except Fault Bytes} {r r' : Bytes} {c c' : AddrCache} {d : Bytes},
      Exec.ofAppend r c x = .ok r' c' d → x = .ok d ∧ r' = r := by
    intro x r r' c c' d h
    cases x with
    | error f => simp [Exec.ofAppend] at h
    | ok d1 =>
      simp only [Exec.ofAppend, Exec.ok.injEq] at h
      exact ⟨by rw [h.2.2], h.1.symm⟩
  have hoe : ∀ {x : Except Fault Bytes} {r : Bytes} {c : AddrCache}, Exec.ofAppend r c x ≠ .endOfData := by
    intro x r c h
    cases x <;> simp [Exec.ofAppend] at h
  unfold executeW operandsW
  dsimp only
  by_cases h1 : ty = vcdAdd
  · have hne : ¬ ty = vcdCopy := by rw [h1]; decide
    rw [if_pos h1, if_neg hne]
    generalize (if env.hdr.interleaved = true then s else b.data) = o
    unfold decodeAddW
    split
    · exact ⟨Nat.zero_le _, fun _ => Nat.zero_le _, fun _ _ _ h => by simp at h⟩
    · refine ⟨by dsimp only; omega, fun h => absurd h hoe, fun r c d h => ?_⟩
      obtain ⟨h2, h3⟩ := hof h
      have := appendTarget_length h2
      rw [h3, List.length_drop, this, List.length_take]; dsimp only; omega
  rw [if_neg h1]
  by_cases h2 : ty = vcdRun
  · have hne : ¬ ty = vcdCopy := by rw [h2]; decide
    rw [if_pos h2, if_neg hne]
    generalize (if env.hdr.interleaved = true then s else b.data) = o
    unfold decodeRunW
    cases o with
    | nil => exact ⟨Nat.zero_le _, fun _ => Nat.zero_le _, fun _ _ _ h => by simp at h⟩
    | cons x o =>
      refine ⟨by dsimp only; omega, fun h => absurd h hoe, fun r c d h => ?_⟩
      obtain ⟨h3, h4⟩ := hof h
      have := appendTarget_length h3
      rw [h4, this, List.length_replicate, List.length_cons]; dsimp only; omega
  rw [if_neg h2]
  by_cases h3 : ty = vcdCopy
  · rw [if_pos h3, if_pos h3]
    generalize (if env.hdr.interleaved = true then s else b.addr) = o
    unfold decodeCopyW
    dsimp only
    obtain ⟨k1, k2⟩ := decodeAddressW_steps b.cache (toInt32 (env.hdr.srcLen + Level.targetBytesDecoded env.startPos b.decoded)) m.toNat o
    rcases hx : b.cache.decodeAddressW (toInt32 (env.hdr.srcLen + Level.targetBytesDecoded env.startPos b.decoded)) m.toNat o with ⟨y, n⟩
    rw [hx] at k1 k2
    cases y with
    | ok a r c =>
      have k3 := k2 a r c rfl
      obtain ⟨k4, k5⟩ := copyBytesW_steps env b.decoded (Level.targetBytesDecoded env.startPos b.decoded) a sz
      refine ⟨by dsimp only; omega, fun h => absurd h hoe, fun r' c' d h => ?_⟩
      obtain ⟨k6, k7⟩ := hof h
      rw [k7]
      exact ⟨k5 d k6, by omega, by dsimp only; omega⟩
    | endOfData => exact ⟨by dsimp only; omega, fun _ => k1, fun _ _ _ h => by simp at h⟩
    | _ => exact ⟨by dsimp only; omega, fun h => by simp at h, fun _ _ _ h => by simp at h⟩
  · rw [if_neg h3]
    exact ⟨Nat.zero_le _, fun _ => Nat.zero_le _, fun _ _ _ h => by simp at h⟩

/-! ### Window bodies -/

/-- The number of bytes of the window that are still to come. -/
def Body.rem (env : BodyEnv) (b : Body) : Nat := env.hdr.targetLen - (b.decoded.length - env.startPos)

/-- What pays for the steps of the loop. -/
def Body.credit (env : BodyEnv) (b : Body) : Nat :=
  6 * b.inst.length + 3 * pendingBit b.pending + b.data.length + b.addr.length + 2 * b.rem env

theorem bodyLoopW_steps (env : BodyEnv) (fuel : Nat) (b : Body) (hs : env.startPos ≤ b.decoded.length) :
    (bodyLoopW env fuel b).2 ≤ b.credit env + 3 ∧
    ∀ b', ((bodyLoopW env fuel b).1 = .ok b' ∨ (bodyLoopW env fuel b).1 = .endOfData b') →
      (bodyLoopW env fuel b).2 + 2 * b'.rem env ≤ b.credit env + 3 ∧ b.decoded.length ≤ b'.decoded.length ∧
      SameSizes b.cache b'.cache := by
  induction fuel generalizing b with
  | zero => exact ⟨Nat.zero_le _, fun b' h => by simp [bodyLoopW] at h⟩
  | succ fuel ih =>
    have hb := pendingBit_le b.pending
    have ht : Level.targetBytesDecoded env.startPos b.decoded = b.decoded.length - env.startPos := szSub_eq hs
    unfold bodyLoopW
    dsimp only
    rw [ht]
    split
    · rename_i hlt
      obtain ⟨g1, g2⟩ := getNextInstructionW_steps env.table b.pending b.inst
      have gf := getNextInstructionW_fst env.table b.pending b.inst
      rcases hx : getNextInstructionW env.table b.pending b.inst with ⟨y, n⟩
      have g0 := getNextInstructionW_pos env.table b.pending b.inst
      rw [hx] at g0 g1 g2
      dsimp only at g0 g1 g2
      cases y with
      | endOfData rest pending =>
        refine ⟨by simp only [Body.credit]; omega, fun b' h => ?_⟩
        simp only [reduceCtorEq, BodyResult.endOfData.injEq, false_or] at h
        subst h
        refine ⟨?_, Nat.le_refl _, .refl _⟩
        simp only [Body.credit, Body.rem]; omega
      | error =>
        exact ⟨by simp only [Body.credit]; omega, fun b' h => by simp at h⟩
      | inst ty sz m r p' =>
        have g3 := g2 ty sz m r p' rfl
        dsimp only
        split
        · exact ⟨by simp only [Body.credit]; omega, fun b' h => by simp at h⟩
        · rename_i hsz
          obtain ⟨e1, e2, e3⟩ := executeW_steps env b ty sz m r
          have ef := executeW_fst env b ty sz m r
          have ho : (operandsW env b ty r).length ≤ r.length + b.data.length + b.addr.length := by
            unfold operandsW; split
            · omega
            · split <;> omega
          have hrem : b.rem env = env.hdr.targetLen - (b.decoded.length - env.startPos) := rfl
          rcases hex : executeW env b ty sz m r with ⟨z, k⟩
          rw [hex] at e1 e2 e3 ef
          dsimp only at e1 e2 e3 ef
          cases z with
          | endOfData =>
            have := e2 rfl
            refine ⟨by simp only [Body.credit]; omega, fun b' h => ?_⟩
            simp only [reduceCtorEq, BodyResult.endOfData.injEq, false_or] at h
            subst h
            exact ⟨by simp only [Body.credit]; omega, Nat.le_refl _, .refl _⟩
          | error => exact ⟨by simp only [Body.credit]; omega, fun b' h => by simp at h⟩
          | fault f => exact ⟨by simp only [Body.credit]; omega, fun b' h => by simp at h⟩
          | ok rest c d =>
            obtain ⟨e4, e6, e5⟩ := e3 rest c d rfl
            have hss := execute_sizes ef.symm
            dsimp only
            have hd : (b.afterExec env ty r p' rest c d).decoded = d := by
              unfold Body.afterExec; split <;> (try split) <;> rfl
            have hc : (b.afterExec env ty r p' rest c d).cache = c := by
              unfold Body.afterExec; split <;> (try split) <;> rfl
            obtain ⟨i1, i2⟩ := ih (b.afterExec env ty r p' rest c d) (by rw [hd]; omega)
            have hcr : (b.afterExec env ty r p' rest c d).credit env + 3 + (1 + n + k) ≤ b.credit env + 3 := by
              have hr : (b.afterExec env ty r p' rest c d).rem env + sz = b.rem env := by
                unfold Body.rem; rw [hd]; omega
              have hx : 6 * (b.afterExec env ty r p' rest c d).inst.length + (b.afterExec env ty r p' rest c d).data.length +
                  (b.afterExec env ty r p' rest c d).addr.length + (operandsW env b ty r).length ≤
                  6 * r.length + b.data.length + b.addr.length + rest.length ∧
                  (b.afterExec env ty r p' rest c d).pending = p' := by
                unfold operandsW at e6 ⊢
                unfold Body.afterExec
                by_cases hi : env.hdr.interleaved = true
                · simp only [if_pos hi] at e6 ⊢
                  refine ⟨?_, trivial⟩; omega
                · simp only [if_neg hi] at e6 ⊢
                  by_cases hy : ty = vcdCopy
                  · simp only [if_pos hy] at e6 ⊢
                    refine ⟨?_, trivial⟩; omega
                  · simp only [if_neg hy] at e6 ⊢
                    refine ⟨?_, trivial⟩; omega
              obtain ⟨x1, x2⟩ := hx
              simp only [Body.credit, x2]
              have := pendingBit_le p'
              omega
            refine ⟨?_, fun b' h => ?_⟩
            · simp only [stepsThen_snd]; omega
            · obtain ⟨j1, j2, j3⟩ := i2 b' h
              refine ⟨?_, ?_, ?_⟩
              · simp only [stepsThen_snd]; omega
              · rw [hd] at j2; omega
              · rw [hc] at j3; exact hss.trans j3
    · refine ⟨by dsimp only; omega, fun b' h => ?_⟩
      simp only [BodyResult.ok.injEq, reduceCtorEq, or_false] at h
      subst h
      refine ⟨?_, Nat.le_refl _, .refl _⟩
      simp only [Body.credit]; omega

end Vcd
