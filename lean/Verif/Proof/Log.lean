import Verif.Model.Log

/-!
# Lemmas about the decoder's messages

`Reported P l` says that there is a message with property `P` among `l`. `P` is either true of all messages or of all but `badTable`.
-/

namespace Vcd

/-- A message with property `P` is in the log. -/
def Reported (P : Message → Prop) (l : List Message) : Prop := ∃ m ∈ l, P m

variable {P : Message → Prop}

@[simp] theorem reported_nil : Reported P [] ↔ False := by simp [Reported]

@[simp] theorem reported_append {a b : List Message} : Reported P (a ++ b) ↔ Reported P a ∨ Reported P b := by
  simp [Reported, or_and_right, exists_or]

@[simp] theorem reported_cons {m : Message} {l : List Message} : Reported P (m :: l) ↔ P m ∨ Reported P l := by
  simp [Reported]

@[simp] theorem reported_messageIf {c : Prop} [Decidable c] {m : Message} : Reported P (messageIf c m) ↔ c ∧ P m := by
  unfold messageIf; split <;> simp_all

theorem reported_true {l : List Message} : Reported (fun _ => True) l ↔ l ≠ [] := by
  cases l <;> simp [Reported]

/-- `P` holds of all messages but `badTable`. -/
def Serious (P : Message → Prop) : Prop := ∀ m, m ≠ .badTable → P m

theorem serious_true : Serious fun _ => True := fun _ _ => trivial
theorem serious_ne : Serious fun m => m ≠ .badTable := fun _ h => h

/-! ## Headers -/

/-- The messages explain the result of a parse function. -/
def Explains (P : Message → Prop) {α : Type} (p : Parsed α) (l : List Message) : Prop := Reported P l ↔ p = .error

theorem Explains.bind {α β : Type} {p : Parsed α} {l : List Message} {f : α → Bytes → Parsed β} {g : α → Bytes → List Message}
    (h : Explains P p l) (hf : ∀ v r, Explains P (f v r) (g v r)) : Explains P (p.bind f) (p.log l g) := by
  unfold Explains at *
  cases p with
  | ok v r => simp [Parsed.bind, Parsed.log, hf, h]
  | endOfData => simp [Parsed.bind, Parsed.log, h]
  | error => simp [Parsed.bind, Parsed.log, h]

/-- A continuation that does not fail adds nothing to explain. -/
theorem Explains.map {α β : Type} {p : Parsed α} {l : List Message} {f : α → Bytes → Parsed β}
    (h : Explains P p l) (hf : ∀ v r, f v r ≠ .error) : Explains P (p.bind f) l := by
  unfold Explains at *
  cases p <;> simp_all [Parsed.bind]

theorem Explains.ite {α : Type} {c : Prop} [Decidable c] {p q : Parsed α} {l k : List Message}
    (h : c → Explains P p l) (h' : ¬ c → Explains P q k) : Explains P (if c then p else q) (if c then l else k) := by
  split
  · exact h ‹_›
  · exact h' ‹_›

variable (hP : Serious P)
include hP

theorem explains_error {α : Type} {m : Message} (h : m ≠ .badTable) : Explains P (.error : Parsed α) [m] := by
  simp [Explains, hP m h]

theorem explains_if {α : Type} {c : Prop} [Decidable c] {p : Parsed α} {m : Message} (h : m ≠ .badTable) (hp : p ≠ .error) :
    Explains P (if c then .error else p) (messageIf c m) := by
  unfold Explains; split <;> simp_all [hP m h]

omit hP in
theorem parseByte_explains (s : Bytes) : Explains P (parseByte s) [] := by
  unfold parseByte Explains; split <;> simp

theorem parseInt32_explains (s : Bytes) : Explains P (parseInt32 s) (parseInt32Log s) := by
  unfold parseInt32 parseInt32Log Explains
  cases parseVarint32 s <;> simp [hP .varint]

theorem parseSize_explains (s : Bytes) : Explains P (parseSize s) (parseInt32Log s) := parseInt32_explains hP s

theorem parseUInt32_explains (s : Bytes) : Explains P (parseUInt32 s) (parseUInt32Log s) := by
  unfold parseUInt32 parseUInt32Log
  cases parseVarint64 s with
  | ok v r => exact explains_if hP (by simp) (by simp)
  | endOfData => simp [Explains]
  | error => simp [Explains, hP .varint]

theorem parseSourceSegment_explains (n : Nat) (s : Bytes) : Explains P (parseSourceSegment n s) (parseSourceSegmentLog n s) := by
  unfold parseSourceSegment parseSourceSegmentLog
  refine (parseSize_explains hP s).bind fun len s => .ite (fun _ => explains_error hP (by simp)) fun _ => ?_
  refine (parseSize_explains hP s).bind fun pos s => .ite (fun _ => explains_error hP (by simp)) fun _ => ?_
  exact explains_if hP (by simp) (by simp)

theorem parseWinIndicator_explains (n k : Nat) (a : Bool) (s : Bytes) :
    Explains P (parseWinIndicator n k a s) (parseWinIndicatorLog n k a s) := by
  unfold parseWinIndicator parseWinIndicatorLog
  refine (parseByte_explains s).bind fun ind s => ?_
  refine .ite (fun _ => (parseSourceSegment_explains hP n s).map (by simp)) fun _ => ?_
  refine .ite (fun _ => ?_) fun _ => explains_if hP (by simp) (by simp)
  exact .ite (fun _ => explains_error hP (by simp)) fun _ => (parseSourceSegment_explains hP k s).map (by simp)

theorem parseDeltaIndicator_explains (s : Bytes) : Explains P (parseDeltaIndicator s) (parseDeltaIndicatorLog s) := by
  unfold parseDeltaIndicator parseDeltaIndicatorLog
  exact (parseByte_explains s).bind fun b s => explains_if hP (by simp) (by simp)

theorem parseSectionLengths_explains (c : Bool) (n : Nat) (d s : Bytes) :
    Explains P (parseSectionLengths c n d s) (parseSectionLengthsLog c n d s) := by
  unfold parseSectionLengths parseSectionLengthsLog
  refine (parseSize_explains hP s).bind fun _ s => (parseSize_explains hP s).bind fun _ s => (parseSize_explains hP s).bind fun _ s => ?_
  refine Explains.bind (.ite (fun _ => (parseUInt32_explains hP s).map (by simp)) fun _ => by simp [Explains]) fun _ s => ?_
  exact explains_if hP (by simp) (by simp)

theorem wouldExceed_explains (L : Level) (n : Nat) : Reported P (L.wouldExceedLog n) ↔ L.wouldExceed n = true := by
  unfold Level.wouldExceedLog Level.wouldExceed
  have h1 := hP .windowSize (by simp)
  have h2 := hP .plannedSize (by simp)
  have h3 := hP .fileSize (by simp)
  by_cases hw : n > L.maxWin
  · simp [hw, h1]
  · cases L.planned with
    | none => simp [hw, h3]
    | some k => by_cases hk : n > szSub k L.total <;> simp [hw, hk, h2, h3]

theorem readHeader_explains (L : Level) (s : Bytes) : Explains P (readHeader L s) (readHeaderLog L s) := by
  unfold readHeader readHeaderLog
  refine (parseWinIndicator_explains hP _ _ _ s).bind fun isp s => ?_
  refine (parseSize_explains hP s).bind fun dl ds => (parseSize_explains hP ds).bind fun tl s => ?_
  refine .ite (fun h => ?_) fun _ => ?_
  · simp [Explains, wouldExceed_explains hP, h]
  · refine (parseDeltaIndicator_explains hP s).bind fun _ s => (parseSectionLengths_explains hP _ _ _ s).map fun lens s => ?_
    dsimp only
    split <;> simp

/-! ## Windows -/

theorem commitDecoded_explains (c : AddrCache) (here a : Int) (rest : Bytes) :
    Reported P (addressLog here a) ↔ c.commitDecoded here a rest = .error := by
  unfold addressLog AddrCache.commitDecoded
  split
  · simp [hP .addressNegative]
  · by_cases ha : a ≥ here
    · simp [ha, hP .addressBeyond]
    · rw [if_neg ha, reported_messageIf]
      cases c.update a.toNat <;> simp only [ha, false_and, reduceCtorEq]

theorem decodeAddress_explains (c : AddrCache) (here : Int) (mode : Nat) (s : Bytes) :
    Reported P (c.decodeAddressLog here mode s) ↔ c.decodeAddress here mode s = .error := by
  unfold AddrCache.decodeAddressLog AddrCache.decodeAddress
  split
  · simp [hP (.fatal .negativeHere)]
  · cases s with
    | nil => simp
    | cons b bs =>
      dsimp only
      split
      · cases c.same[(mode - c.firstSameMode) * 256 + b.toNat]? with
        | none => simp
        | some a => exact commitDecoded_explains hP c ..
      · cases parseVarint32 (b :: bs) with
        | error => simp [hP .addressVarint]
        | endOfData => simp
        | ok enc rest =>
          dsimp only
          split
          · exact commitDecoded_explains hP c ..
          · split
            · exact commitDecoded_explains hP c ..
            · split
              · cases c.near[mode - 2]? with
                | none => simp
                | some a =>
                  dsimp only
                  split
                  · simp
                  · exact commitDecoded_explains hP c ..
              · simp [hP (.fatal .invalidMode)]

omit hP in
theorem ofAppend_ne_error (rest : Bytes) (c : AddrCache) (x : Except Fault Bytes) : Exec.ofAppend rest c x ≠ .error := by
  cases x <;> simp [Exec.ofAppend]

theorem execute_explains (env : BodyEnv) (b : Body) (type : UInt8) (size : Nat) (mode : UInt8) (r : Bytes) :
    Reported P (executeLog env b type mode r) ↔ execute env b type size mode r = .error := by
  unfold executeLog execute
  dsimp only
  generalize (if env.hdr.interleaved = true then r else b.data) = ds
  generalize (if env.hdr.interleaved = true then r else b.addr) = as
  split
  · simp only [reported_nil, false_iff, decodeAdd]
    split
    · simp
    · exact ofAppend_ne_error _ _ _
  · split
    · simp only [reported_nil, false_iff, decodeRun]
      split
      · simp
      · exact ofAppend_ne_error _ _ _
    · split
      · simp only [decodeCopy, reported_append, decodeAddress_explains hP, reported_messageIf]
        cases b.cache.decodeAddress _ _ _ <;> simp [ofAppend_ne_error]
      · simp [hP (.fatal .instructionType)]

theorem getNextInstruction_explains (t : CodeTable) (p : Option UInt8) (s : Bytes) :
    Reported P (getNextInstructionLog t p s) ↔ getNextInstruction t p s = .error := by
  simp [getNextInstructionLog, hP .sizeVarint]

theorem bodyLoop_explains (env : BodyEnv) (fuel : Nat) (b : Body) :
    Reported P (bodyLoopLog env fuel b) ↔ bodyLoop env fuel b = .error := by
  induction fuel generalizing b with
  | zero => simp [bodyLoopLog, bodyLoop]
  | succ fuel ih =>
    unfold bodyLoopLog bodyLoop
    dsimp only
    split
    · rw [reported_append, getNextInstruction_explains hP]
      cases getNextInstruction env.table b.pending b.inst with
      | error => simp
      | endOfData => simp
      | inst type size mode r p =>
        dsimp only
        split
        · simp [hP .instructionSize]
        · rw [reported_append, execute_explains hP env b type size]
          cases execute env b type size mode r with
          | ok => simp [ih]
          | _ => simp
    · simp

theorem decodeBody_explains (env : BodyEnv) (b : Body) :
    Reported P (decodeBodyLog env b) ↔ decodeBody env b = .error := by
  unfold decodeBodyLog decodeBody
  rw [reported_append, bodyLoop_explains hP]
  cases bodyLoop env (2 * b.inst.length + 2) b with
  | ok b =>
    dsimp only
    (repeat' split) <;> simp_all [hP .decodedSize, hP .checksum, hP .excessInstructions, hP .excessData, hP .excessAddresses]
  | _ => simp

theorem decodeWindowBody_explains (L : Level) (w : OpenWindow) (c : AddrCache) (s : Bytes) :
    Reported P (decodeWindowBodyLog L w c s) ↔ decodeWindowBody L w c s = .error := by
  unfold decodeWindowBodyLog decodeWindowBody
  dsimp only
  split
  · rw [reported_append, decodeBody_explains hP]
    cases decodeBody _ _ with
    | endOfData b' => dsimp only; split <;> simp_all [hP .endOfData]
    | _ => simp
  · rw [reported_append, decodeBody_explains hP]
    cases decodeBody _ _ with
    | endOfData b' => simp [hP .endOfData]
    | _ => simp

theorem decodeWindow_explains (L : Level) (hc : L.cache.isSome) (s : Bytes) :
    Reported P (decodeWindowLog L s) ↔ decodeWindow L s = .error := by
  unfold decodeWindowLog decodeWindow
  cases L.win with
  | none =>
    dsimp only
    have h := readHeader_explains hP L s
    rw [Explains] at h
    rw [reported_append, h]
    cases readHeader L s with
    | ok hdr rest =>
      cases L.cache.bind AddrCache.init with
      | none => simp [hP .cacheSizes]
      | some c => simp [decodeWindowBody_explains hP]
    | _ => simp
  | some w =>
    dsimp only
    split
    · simp [hP (.fatal .resumed)]
    · obtain ⟨c, hc⟩ := Option.isSome_iff_exists.1 hc
      simp [hc, decodeWindowBody_explains hP]

omit hP in
theorem decodeWindowBody_cache {L L' : Level} {w : OpenWindow} {c : AddrCache} {s rest : Bytes}
    (h : decodeWindowBody L w c s = .ok L' rest) : L'.cache.isSome := by
  unfold decodeWindowBody at h
  dsimp only at h
  (repeat' split at h) <;> simp_all <;> (obtain ⟨h, -⟩ := h; subst h; rfl)

omit hP in
theorem decodeWindow_cache {L L' : Level} {s rest : Bytes} (h : decodeWindow L s = .ok L' rest) : L'.cache.isSome := by
  unfold decodeWindow at h
  (repeat' split at h) <;> first | exact decodeWindowBody_cache h | simp at h

theorem windowLoop_explains (fuel : Nat) (L : Level) (hc : L.cache.isSome) (s out : Bytes) :
    Reported P (windowLoopLog fuel L s) ↔ ∃ out', windowLoop fuel L s out = .error out' := by
  induction fuel generalizing L s out with
  | zero => simp [windowLoopLog, windowLoop]
  | succ fuel ih =>
    unfold windowLoopLog windowLoop
    split
    · simp
    · rw [reported_append, decodeWindow_explains hP L hc]
      cases hw : decodeWindow L s with
      | ok L' rest =>
        have := decodeWindow_cache hw
        dsimp only
        split
        · simp
        · split
          · simp [ih L'.flush.1 (by simpa [Level.flush] using this) rest (out ++ L'.flush.2)]
          · simp [ih L' this rest out]
      | _ => simp

theorem decodeChunkWindows_explains (L : Level) (hc : L.cache.isSome) (s : Bytes) :
    Reported P (windowLoopLog (s.length + 2) L s) ↔ ∃ L' out, decodeChunkWindows L s = .error L' out := by
  rw [windowLoop_explains hP _ _ hc _ []]
  unfold decodeChunkWindows
  cases windowLoop (s.length + 2) L s [] <;> simp [endChunk]

/-! ## Chunks -/

theorem readFileHeader_explains (s : Bytes) : Explains P (readFileHeader s) (readFileHeaderLog s) := by
  unfold readFileHeader readFileHeaderLog
  cases checkMagic s with
  | none => dsimp only; split <;> exact explains_error hP (by simp)
  | some b =>
    cases b with
    | false => simp [Explains]
    | true =>
      refine .ite (fun _ => explains_error hP (by simp)) fun _ => .ite (fun _ => ?_) fun _ => by simp [Explains]
      refine (parseInt32_explains hP _).bind fun near rest => (parseInt32_explains hP _).bind fun same rest => ?_
      exact .ite (fun _ => explains_error hP (by simp)) fun _ => explains_if hP (by simp) (by simp)

omit hP in
theorem messageIf_eq_nil {c : Prop} [Decidable c] {m : Message} : messageIf c m = [] ↔ ¬ c := by
  unfold messageIf; split <;> simp_all

omit hP in
theorem validateOpcodeLog_eq_nil (h : Half) (n : Nat) : validateOpcodeLog h n = [] ↔ validateOpcode h n = true := by
  simp only [validateOpcodeLog, List.append_eq_nil_iff, messageIf_eq_nil, validateOpcode]
  simp
  grind

omit hP in
theorem validate_noErrors (t : CodeTable) (n : Nat) (ops : List UInt8) (st : ValidateState) :
    (ops.foldl (validateStep t n) st).noErrors = true ↔
      st.noErrors = true ∧ ∀ op ∈ ops, validateOpcode (t.first op) n = true ∧ validateOpcode (t.second op) n = true := by
  induction ops generalizing st with
  | nil => simp
  | cons op ops ih =>
    rw [List.foldl_cons, ih]
    have : (validateStep t n st op).noErrors = (validateOpcode (t.second op) n && (validateOpcode (t.first op) n && st.noErrors)) := by
      unfold validateStep; dsimp only; split <;> rfl
    rw [this]
    simp
    grind

omit hP in
/-- A code table is refused if and only if there is a message about it. -/
theorem validateLog_eq_nil (t : CodeTable) (n : Nat) : t.validateLog n = [] ↔ t.validate n = true := by
  simp only [CodeTable.validateLog, CodeTable.validate, List.append_eq_nil_iff, List.flatMap_eq_nil_iff, Bool.and_eq_true, validate_noErrors,
    validateOpcodeLog_eq_nil, messageIf_eq_nil, List.all_eq_true, true_and]
  simp

omit hP in
theorem validateLog_badTable (t : CodeTable) (n : Nat) : ∀ m ∈ t.validateLog n, m = .badTable := by
  have mem {c : Prop} [Decidable c] {m : Message} (h : m ∈ messageIf c .badTable) : m = .badTable := by
    unfold messageIf at h; split at h <;> simp_all
  have op {h : Half} {n : Nat} {m : Message} (h : m ∈ validateOpcodeLog h n) : m = .badTable := by
    simp only [validateOpcodeLog, List.mem_append] at h
    rcases h with ((h | h) | h) | h <;> exact mem h
  intro m hm
  simp only [CodeTable.validateLog, List.mem_append, List.mem_flatMap] at hm
  rcases hm with ⟨_, _, h | h⟩ | ⟨_, _, h⟩
  · exact op h
  · exact op h
  · exact mem h

omit hP in
theorem validateLog_not_serious (t : CodeTable) (n : Nat) : ¬ Reported (fun m => m ≠ .badTable) (t.validateLog n) := by
  rintro ⟨m, hm, h⟩; exact h (validateLog_badTable t n m hm)

theorem afterCodeTableChunk_explains (hv : ∀ t n, ¬ Reported P (CodeTable.validateLog t n)) (L : Level) (hc : L.cache.isSome)
    (n : Level) (ns : List Level) (s text : Bytes) :
    Reported P (afterCodeTableChunkLog L n ns s text) ↔ ∃ L' out, afterCodeTableChunk L n ns s text = .error L' out := by
  unfold afterCodeTableChunkLog afterCodeTableChunk
  dsimp only
  split
  · simp [endChunk]
  · split
    · simp [hP .incomplete]
    · split
      · split
        · simp
        · rw [reported_append, ← decodeChunkWindows_explains hP]
          · simp [hv]
          · simpa using hc
      · simp [hP (.fatal .tableSize)]

theorem decodeChunk_explains (hv : ∀ t n, ¬ Reported P (CodeTable.validateLog t n)) (fuel : Nat) (L : Level) (nested : List Level)
    (data : Bytes) :
    Reported P (decodeChunkLogFuel fuel L nested data) ↔ ∃ L' out, decodeChunkFuel fuel L nested data = .error L' out := by
  induction fuel generalizing L nested data with
  | zero => simp [decodeChunkLogFuel, decodeChunkFuel]
  | succ fuel ih =>
    rw [decodeChunkFuel, decodeChunkLogFuel]
    dsimp only
    have custom (L : Level) (hc : L.cache.isSome) (nested : List Level) (s : Bytes) :
        Reported P (match nested with
          | [] => windowLoopLog (s.length + 2) L s
          | n :: ns =>
            decodeChunkLogFuel fuel n ns s ++
              match decodeChunkFuel fuel n ns s with
              | .ok n' ns' text => afterCodeTableChunkLog L n' ns' s text
              | _ => []) ↔
        ∃ L' out, (match nested with
          | [] => decodeChunkWindows L s
          | n :: ns =>
            match decodeChunkFuel fuel n ns s with
            | .fault f => .fault f
            | .error _ _ => .error ({ L with unparsed := [], decoded := [] } : Level).reset []
            | .ok n' ns' text => afterCodeTableChunk L n' ns' s text : ChunkResult) = .error L' out := by
      cases nested with
      | nil => exact decodeChunkWindows_explains hP L hc s
      | cons n ns =>
        dsimp only
        rw [reported_append, ih]
        cases decodeChunkFuel fuel n ns s with
        | ok n' ns' text => simp [afterCodeTableChunk_explains hP hv L hc]
        | error => simp
        | fault => simp
    split
    · simp [hP (.fatal .notStarted)]
    · cases hc : L.cache with
      | some c => exact custom L (by simp [hc]) nested _
      | none =>
        have h := readFileHeader_explains hP (L.unparsed ++ data)
        rw [Explains] at h
        dsimp only
        rw [reported_append, h]
        cases readFileHeader (L.unparsed ++ data) with
        | error => simp
        | endOfData => simp [endChunk]
        | ok hdr rest =>
          simp only [reduceCtorEq, false_or]
          cases hdr.caches with
          | none => exact custom { L with version := hdr.version, cache := some AddrCache.newDefault } rfl nested rest
          | some ns =>
            exact custom { L with version := hdr.version, cache := some (AddrCache.new ns.1 ns.2), tableString := [] } rfl
              [Level.forCodeTable] rest

/-- Without a custom code table, also for `P` that are true of the messages about code tables. -/
theorem decodeChunk_explains_plain (fuel : Nat) (L : Level) (data : Bytes)
    (hp : L.cache = none → ∀ hdr rest, readFileHeader (L.unparsed ++ data) = .ok hdr rest → hdr.caches = none) :
    Reported P (decodeChunkLogFuel fuel L [] data) ↔ ∃ L' out, decodeChunkFuel fuel L [] data = .error L' out := by
  cases fuel with
  | zero => simp [decodeChunkLogFuel, decodeChunkFuel]
  | succ fuel =>
    rw [decodeChunkFuel, decodeChunkLogFuel]
    dsimp only
    split
    · simp [hP (.fatal .notStarted)]
    · cases hc : L.cache with
      | some c => exact decodeChunkWindows_explains hP L (by simp [hc]) _
      | none =>
        have h := readFileHeader_explains hP (L.unparsed ++ data)
        rw [Explains] at h
        dsimp only
        rw [reported_append, h]
        cases hr : readFileHeader (L.unparsed ++ data) with
        | error => simp
        | endOfData => simp [endChunk]
        | ok hdr rest =>
          simp only [reduceCtorEq, false_or]
          rw [hp hc hdr rest hr]
          exact decodeChunkWindows_explains hP { L with version := hdr.version, cache := some AddrCache.newDefault } rfl rest

end Vcd
