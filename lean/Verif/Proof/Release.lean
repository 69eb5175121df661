import Verif.Model.Release

/-!
# The two builds of the encoder do the same up to the first `VCD_DFATAL`
-/

namespace Vcd
namespace Release

/-- The result `d` of a build without `NDEBUG` and the result `r` of a build with it. -/
def Agrees {α : Type} (d r : Except Fault α) : Prop := d = .error .assertion ∨ r = d

theorem Agrees.refl {α : Type} (d : Except Fault α) : Agrees d d := .inr rfl

theorem Agrees.exit {α : Type} (r : Except Fault α) : Agrees (.error .assertion) r := .inl rfl

theorem Agrees.map {α β : Type} {d r : Except Fault α} (h : Agrees d r) (f : α → β) : Agrees (d.map f) (r.map f) := by
  rcases h with h | h
  · left; rw [h]; rfl
  · right; rw [h]

theorem Agrees.bind {α β : Type} {d r : Except Fault α} {f g : α → Except Fault β} (h : Agrees d r)
    (hf : ∀ a, Agrees (f a) (g a)) : Agrees (d >>= f) (r >>= g) := by
  rcases h with h | h
  · left; rw [h]; rfl
  · subst h
    cases r with
    | error e => exact .refl _
    | ok a => exact hf a

theorem Agrees.ite {α : Type} {p : Prop} [Decidable p] {d1 d2 r1 r2 : Except Fault α} (h1 : p → Agrees d1 r1)
    (h2 : ¬p → Agrees d2 r2) : Agrees (if p then d1 else d2) (if p then r1 else r2) := by
  by_cases h : p
  · rw [if_pos h, if_pos h]; exact h1 h
  · rw [if_neg h, if_neg h]; exact h2 h

/-! ## The block hash -/

theorem addBlock_agrees (bh : BlockHash) (h : UInt32) : Agrees (bh.addBlock h) (addBlock bh h) := by
  unfold BlockHash.addBlock addBlock
  refine .ite (fun _ => .exit _) fun _ => .ite (fun _ => .exit _) fun _ => ?_
  rcases bh.next[bh.added]? with _ | _ | n
  · exact .refl _
  · rcases bh.table[bh.index h]? with _ | _ | f
    · exact .refl _
    · exact .refl _
    · simp only
      rcases bh.last[f]? with _ | _ | l
      · exact .refl _
      · exact .refl _
      · simp only
        rcases bh.next[l]? with _ | _ | k
        · exact .refl _
        · exact .refl _
        · exact .exit _
  · exact .exit _

theorem addBlocksLoop_agrees (endLimit : Int) (fuel : Nat) (bh : BlockHash) (pos : Nat) :
    Agrees (BlockHash.addBlocksLoop endLimit fuel bh pos) (addBlocksLoop endLimit fuel bh pos) := by
  induction fuel generalizing bh pos with
  | zero => exact .refl _
  | succ fuel ih =>
    simp only [BlockHash.addBlocksLoop, addBlocksLoop]
    refine .ite (fun _ => ?_) fun _ => .refl _
    exact (Agrees.refl _).bind fun block => (addBlock_agrees bh _).bind fun bh => ih bh _

theorem addAll_agrees (bh : BlockHash) (endIndex : Int) :
    Agrees (bh.addAllBlocksThroughIndex endIndex) (addAllBlocksThroughIndex bh endIndex) := by
  unfold BlockHash.addAllBlocksThroughIndex addAllBlocksThroughIndex
  exact .ite (fun _ => .exit _) fun _ => .ite (fun _ => .exit _) fun _ => .ite (fun _ => .refl _) fun _ =>
    addBlocksLoop_agrees _ _ _ _

theorem addOne_agrees (bh : BlockHash) (idx : Nat) (h : UInt32) :
    Agrees (bh.addOneIndexHash idx h) (addOneIndexHash bh idx h) := by
  unfold BlockHash.addOneIndexHash addOneIndexHash
  exact .ite (fun _ => addBlock_agrees bh h) fun _ => .refl _

theorem create_agrees (source : Bytes) (off : Int) (populate : Bool) :
    Agrees (BlockHash.create source off populate) (create source off populate) := by
  unfold BlockHash.create create
  exact .ite (fun _ => .exit _) fun _ => .ite (fun _ => (addAll_agrees _ _).map some) fun _ => .refl _

theorem nextMatching_agrees (bh : BlockHash) (n : Nat) (block : Bytes) :
    Agrees (bh.nextMatchingBlock n block) (nextMatchingBlock bh n block) := by
  unfold BlockHash.nextMatchingBlock nextMatchingBlock
  exact .ite (fun _ => .exit _) fun _ => .refl _

theorem bestMatchLoop_agrees (bh : BlockHash) (target block : Bytes) (candidate : Nat) (left : Nat) (n : Option Nat)
    (best : Match) :
    Agrees (bh.bestMatchLoop target block candidate left n best) (bestMatchLoop bh target block candidate left n best) := by
  induction left generalizing n best with
  | zero => cases n <;> exact .refl _
  | succ left ih =>
    cases n with
    | none => exact .refl _
    | some n =>
      simp only [BlockHash.bestMatchLoop, bestMatchLoop]
      exact (Agrees.refl _).bind fun best => (nextMatching_agrees bh n block).bind fun n' => ih n' best

theorem findBestMatch_agrees (bh : BlockHash) (h : UInt32) (target : Bytes) (candidate : Nat) (best : Match) :
    Agrees (bh.findBestMatch h target candidate best) (findBestMatch bh h target candidate best) := by
  simp only [BlockHash.findBestMatch, findBestMatch]
  exact (Agrees.refl _).bind fun block => (Agrees.refl _).bind fun n => bestMatchLoop_agrees ..

/-! ## The engine -/

theorem bestMatch_agrees (hashed : BlockHash) (th : Option BlockHash) (h : UInt32) (target : Bytes) (candidate : Nat) :
    Agrees (Engine.bestMatch hashed th h target candidate) (bestMatch hashed th h target candidate) := by
  simp only [Engine.bestMatch, bestMatch]
  rcases findBestMatch_agrees hashed h target candidate {} with k | k
  · rw [k]; exact .exit _
  · rw [k]
    cases hashed.findBestMatch h target candidate {} with
    | error f => exact .refl _
    | ok best =>
      cases th with
      | none => exact .refl _
      | some th => exact findBestMatch_agrees ..

theorem encodeCopy_agrees (hashed : BlockHash) (th : Option BlockHash) (h : UInt32) (target : Bytes) (candidate : Nat) :
    Agrees (Engine.encodeCopyForBestMatch hashed th h target candidate)
      (encodeCopyForBestMatch hashed th h target candidate) := by
  simp only [Engine.encodeCopyForBestMatch, encodeCopyForBestMatch]
  exact (bestMatch_agrees ..).bind fun best => .refl _

theorem update_agrees (th : Option BlockHash) {f g : BlockHash → Except Fault BlockHash} (h : ∀ b, Agrees (f b) (g b)) :
    Agrees (Engine.updateTargetHash th f) (Engine.updateTargetHash th g) := by
  cases th with
  | none => exact .refl _
  | some th => exact (h th).map some

theorem encodeLoop_agrees (hashed : BlockHash) (target : Bytes) (fuel : Nat) (nextEncode candidate : Nat) (h : UInt32)
    (th : Option BlockHash) (calls : List CoderCall) :
    Agrees (Engine.encodeLoop hashed target fuel nextEncode candidate h th calls)
      (encodeLoop hashed target fuel nextEncode candidate h th calls) := by
  induction fuel generalizing nextEncode candidate h th calls with
  | zero => exact .refl _
  | succ fuel ih =>
    simp only [Engine.encodeLoop, encodeLoop]
    refine (encodeCopy_agrees hashed th h (target.drop nextEncode) (candidate - nextEncode)).bind fun p => ?_
    obtain ⟨n, made⟩ := p
    refine .ite (fun _ => .ite (fun _ => .refl _) fun _ => ?_) fun _ => .ite (fun _ => .refl _) fun _ => ?_
    · exact (Agrees.refl _).bind fun block => (update_agrees th fun b => addAll_agrees b _).bind fun th => ih ..
    · refine (update_agrees th fun b => addOne_agrees b candidate h).bind fun th => ?_
      rcases target[candidate]? with _ | old
      · exact .refl _
      · rcases target[candidate + kBlockSize]? with _ | new
        · exact .refl _
        · exact ih ..

theorem engineEncode_agrees (e : Engine) (look : Bool) (target : Bytes) :
    Agrees (e.encode look target) (engineEncode e look target) := by
  unfold Engine.encode engineEncode
  cases e.hashed with
  | none => exact .exit _
  | some hashed =>
    refine .ite (fun _ => .refl _) fun _ => .ite (fun _ => .refl _) fun _ => ?_
    unfold Engine.createTargetHash
    cases look with
    | false =>
      simp only [Bool.false_eq_true, if_false]
      exact (Agrees.refl (readBlock target 0)).bind fun block => (encodeLoop_agrees ..).bind fun p => .refl _
    | true =>
      simp only [if_true]
      rcases create_agrees target (toInt32 e.dictionary.length) false with k | k
      · rw [k]; exact .exit _
      · rw [k]
        rcases BlockHash.create target (toInt32 e.dictionary.length) false with f | _ | th
        · exact .refl _
        · exact .exit _
        · exact (Agrees.refl (readBlock target 0)).bind fun block => (encodeLoop_agrees ..).bind fun p => .refl _

theorem initCall_agrees (e : Engine) : Agrees e.initCall (initCall e) := by
  unfold Engine.initCall initCall
  cases e.hashed with
  | some _ => exact .exit _
  | none =>
    rcases create_agrees e.dictionary 0 true with k | k
    · rw [k]; exact .exit _
    · rw [k]
      rcases BlockHash.create e.dictionary 0 true with f | _ | bh
      · exact .refl _
      · exact .exit _
      · exact .refl _

/-! ## The writer -/

theorem sizeBytes_agrees (n : Nat) : Agrees (Writer.sizeBytes n) (sizeBytes n) := by
  unfold Writer.sizeBytes sizeBytes
  by_cases h : toInt32 n < 0
  · rw [if_pos h]; exact .exit _
  · rw [if_neg h]; exact .refl _

theorem sizeOperand_agrees (x : Bool) (n : Nat) : Agrees (Writer.sizeOperand x n) (sizeOperand x n) := by
  unfold Writer.sizeOperand sizeOperand
  exact .ite (fun _ => sizeBytes_agrees n) fun _ => .refl _

theorem encodeInstruction_agrees (w : Writer) (inst : UInt8) (size mode : Nat) :
    Agrees (w.encodeInstruction inst size mode) (encodeInstruction w inst size mode) := by
  unfold Writer.encodeInstruction encodeInstruction
  cases w.map with
  | none => exact .exit _
  | some m =>
    simp only
    rcases w.compound m inst size mode with f | _ | ⟨i, op, x⟩
    · exact .refl _
    · simp only [Writer.lookupFirst, lookupFirst]
      rcases (if size ≤ 255 then m.firstMap.lookup inst size mode else .found none) with (_ | op) | _
      · simp only
        rcases m.firstMap.lookup inst 0 mode with (_ | op) | _
        · exact .exit _
        · exact (sizeOperand_agrees _ _).map _
        · exact .refl _
      · exact (sizeOperand_agrees _ _).map _
      · exact .refl _
    · exact (sizeOperand_agrees _ _).map _

theorem encodeAddress_agrees (c : AddrCache) (a here : Int) :
    c.encodeAddress a here = .fault .assertion ∨ encodeAddress c a here = c.encodeAddress a here := by
  unfold encodeAddress
  by_cases h1 : a < 0
  · left; rw [AddrCache.encodeAddress, if_pos h1]
  · by_cases h2 : a ≥ here
    · left; rw [AddrCache.encodeAddress, if_neg h1, if_pos h2]
    · right; rw [if_neg h1, if_neg h2]

theorem copy_agrees (w : Writer) (offset : Int) (size : Nat) : Agrees (w.copy offset size) (copy w offset size) := by
  unfold Writer.copy copy
  cases hm : w.map with
  | none => exact .exit _
  | some m =>
    rcases encodeAddress_agrees w.cache offset (toInt32 (w.dictionarySize + w.targetLength)) with k | k
    · rw [k]; exact .exit _
    · rw [k]
      cases w.cache.encodeAddress offset (toInt32 (w.dictionarySize + w.targetLength)) with
      | fault f => exact .refl _
      | ok mode enc cache =>
        simp only
        rcases encodeInstruction_agrees { w with cache, map := some m } vcdCopy size mode with q | q
        · rw [q]; exact .exit _
        · rw [q]; exact .refl _

theorem deltaBytes_agrees (w : Writer) : Agrees w.deltaBytes (deltaBytes w) := by
  unfold Writer.deltaBytes deltaBytes
  exact (sizeBytes_agrees _).bind fun _ => (sizeBytes_agrees _).bind fun _ => (sizeBytes_agrees _).bind fun _ =>
    (sizeBytes_agrees _).bind fun _ => .refl _

theorem windowBytes_agrees (w : Writer) : Agrees w.windowBytes (windowBytes w) := by
  unfold Writer.windowBytes windowBytes
  refine (sizeBytes_agrees _).bind fun _ => (sizeBytes_agrees _).bind fun _ => (sizeBytes_agrees _).bind fun _ =>
    (deltaBytes_agrees w).bind fun delta => ?_
  by_cases h : w.deltaLength ≠ delta.length
  · rw [if_pos h]; exact .exit _
  · rw [if_neg h]; exact .refl _

theorem output_agrees (w : Writer) : Agrees w.output (output w) := by
  unfold Writer.output output
  have hw : Agrees (if w.inst = [] then .ok [] else w.windowBytes) (if w.inst = [] then .ok [] else windowBytes w) :=
    .ite (fun _ => .refl _) fun _ => windowBytes_agrees w
  rcases hw with k | k
  · rw [k]; exact .exit _
  rw [k]
  cases (if w.inst = [] then .ok [] else w.windowBytes : Except Fault Bytes) with
  | error f => exact .refl _
  | ok out =>
  simp only
  rcases (if w.inst = [] then w else { w with data := [], inst := [], addr := [] }).init w.dictionarySize
    with f | ⟨_ | _, w⟩
  · exact .refl _
  · exact .exit _
  · exact .refl _

theorem writerCall_agrees (w : Writer) (c : CoderCall) : Agrees (w.call c) (writerCall w c) := by
  cases c with
  | add bytes => exact ((encodeInstruction_agrees ..).map _).map _
  | copy offset size => exact (copy_agrees ..).map _
  | run size byte => exact ((encodeInstruction_agrees ..).map _).map _
  | output => exact output_agrees w

theorem writerCalls_agrees (w : Writer) (cs : List CoderCall) : Agrees (w.calls cs) (writerCalls w cs) := by
  induction cs generalizing w with
  | nil => exact .refl _
  | cons c cs ih =>
    simp only [Writer.calls, writerCalls]
    rcases writerCall_agrees w c with k | k
    · rw [k]; exact .exit _
    · rw [k]
      rcases w.call c with f | ⟨out, w⟩
      · exact .refl _
      · exact (ih w).map _

/-! ## The encoder -/

theorem start_agrees (e : Encoder) : Agrees e.start (start e) := by
  unfold start
  cases h : e.coder with
  | json w => exact .refl _
  | binary w =>
    simp only [Encoder.start, h]
    rcases w.init e.engine.dictionary.length with f | ⟨_ | _, w⟩
    · exact .refl _
    · exact .refl _
    · exact .refl _

theorem chunk_agrees (e : Encoder) (data : Bytes) : Agrees (e.chunk data) (chunk e data) := by
  unfold Encoder.chunk chunk
  refine .ite (fun _ => .refl _) fun _ => ?_
  cases e.coder with
  | binary w =>
    rcases engineEncode_agrees e.engine e.lookForTargetMatches data with q | q
    · rw [q]; exact .exit _
    rw [q]
    cases e.engine.encode e.lookForTargetMatches data with
    | error f => exact .refl _
    | ok calls =>
    simp only
    rcases writerCalls_agrees (if e.flags &&& 2 ≠ 0 then w.addChecksum (computeAdler32 data) else w) calls with k | k
    · rw [k]; exact .exit _
    · rw [k]; exact .refl _
  | json w =>
    refine .ite (fun _ => .refl _) fun _ => ?_
    rcases engineEncode_agrees e.engine e.lookForTargetMatches data with q | q
    · rw [q]; exact .exit _
    · rw [q]; exact .refl _

theorem pairCall_agrees (e : Encoder) (c : PairCall) : Agrees (e.pairCall c) (pairCall e c) := by
  cases c with
  | init =>
    simp only [Encoder.pairCall, pairCall]
    rcases initCall_agrees e.engine with k | k
    · rw [k]; exact .exit _
    · rw [k]; exact .refl _
  | encoder c =>
    cases c with
    | start => exact (start_agrees e).map _
    | chunk data => exact (chunk_agrees e data).map _
    | finish => exact .refl _

/-- Up to the exit of the one without `NDEBUG`, the two builds answer alike. -/
theorem pairCalls_agrees (e : Encoder) (cs : List PairCall) :
    pairCalls e cs = e.pairCalls cs ∨
      (e.pairCalls cs).2 = some .assertion ∧ (e.pairCalls cs).1 <+: (pairCalls e cs).1 := by
  induction cs generalizing e with
  | nil => exact .inl rfl
  | cons c cs ih =>
    simp only [Encoder.pairCalls, pairCalls]
    rcases pairCall_agrees e c with k | k
    · right; rw [k]; exact ⟨rfl, List.nil_prefix⟩
    · rw [k]
      rcases e.pairCall c with f | ⟨r, e'⟩
      · exact .inl rfl
      · rcases ih e' with h | ⟨h1, h2⟩
        · left; simp only [h]
        · right; exact ⟨h1, by simpa using h2⟩

end Release
end Vcd
