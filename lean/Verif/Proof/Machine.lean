import Verif.Model.Machine
import Verif.Proof.ReleaseUse
import Verif.Proof.ReleaseAny
import Verif.Proof.EncoderMemory

/-!
# On any machine the encoder does the same: lemmas for C77
-/

namespace Vcd
open Spec
namespace Machine

/-- Machines for which the library is written: `size_t` has 32 bits or more, and a block is a whole number of words
(`VCD_COMPILE_ASSERT`, src/blockhash.cc:240-241). -/
def Supported (M : Machine) : Prop := 32 ≤ M.bits ∧ 0 < M.word ∧ M.word ∣ kBlockSize

variable {M : Machine}

theorem bind_congr {α β : Type} {x y : Except Fault α} {f g : α → Except Fault β} (h : x = y) (hf : ∀ a, y = .ok a → f a = g a) :
    (x >>= f) = (y >>= g) := by
  subst h
  cases x with
  | error e => rfl
  | ok a => exact hf a rfl

theorem Supported.big (h : M.Supported) : 2 ^ 32 ≤ 2 ^ M.bits := Nat.pow_le_pow_right (by decide) h.1

theorem Supported.add (h : M.Supported) {a b : Nat} (hab : a + b < 2 ^ 32) : M.add a b = a + b :=
  Nat.mod_eq_of_lt (Nat.lt_of_lt_of_le hab h.big)

theorem sub_eq {a b : Nat} (hab : b ≤ a) : M.sub a b = a - b := if_pos hab

/-! ## The block hash -/

theorem Supported.calcTableLoop (h : M.Supported) {m : Nat} (hm : m ≤ 2 ^ 30) : ∀ (fuel k : Nat), k ≤ 31 →
    M.calcTableLoop m (fuel + 32 - k) (2 ^ k) = Vcd.calcTableLoop m (65 - k) (2 ^ k) := by
  intro fuel k hk
  generalize hd : 31 - k = d
  induction d generalizing k with
  | zero =>
    obtain rfl : k = 31 := by omega
    rw [show fuel + 32 - 31 = fuel + 1 by omega, show 65 - 31 = 33 + 1 from rfl, Machine.calcTableLoop, Vcd.calcTableLoop,
      if_neg (by omega), if_neg (by omega)]
  | succ d ih =>
    rw [show fuel + 32 - k = (fuel + 32 - (k + 1)) + 1 by omega, show 65 - k = (65 - (k + 1)) + 1 by omega, Machine.calcTableLoop,
      Vcd.calcTableLoop]
    split
    · have hp : 2 ^ k * 2 ≤ 2 ^ 31 := by
        rw [← Nat.pow_succ]; exact Nat.pow_le_pow_right (by decide) (by omega)
      have e1 : 2 ^ k * 2 % 2 ^ M.bits = 2 ^ (k + 1) := by
        rw [Nat.mod_eq_of_lt (Nat.lt_of_lt_of_le (Nat.lt_of_le_of_lt hp (by decide)) h.big), Nat.pow_succ]
      have e2 : 2 ^ k * 2 % size64 = 2 ^ (k + 1) := by
        rw [Nat.mod_eq_of_lt (Nat.lt_of_le_of_lt hp (by decide)), Nat.pow_succ]
      simp only [e1, e2]
      split
      · rfl
      · exact ih (k + 1) (by omega) (by omega)
    · rfl

theorem Supported.calcTableSize (h : M.Supported) {n : Nat} (hn : n < 2 ^ 31) : M.calcTableSize n = Vcd.calcTableSize n := by
  obtain ⟨b, hb⟩ : ∃ b, M.bits + 1 = b + 32 := ⟨M.bits - 31, by have := h.1; omega⟩
  have h1 : M.add (n / 4) 1 = n / 4 + 1 := h.add (by omega)
  have hl := h.calcTableLoop (m := n / 4 + 1) (by omega) b 0 (by omega)
  simp only [Nat.sub_zero, Nat.pow_zero] at hl
  simp only [Machine.calcTableSize, Vcd.calcTableSize, h1, hb, hl]
  generalize Vcd.calcTableLoop (n / 4 + 1) 65 1 = t
  have h2 : (n / 4 + 1) * 2 % 2 ^ M.bits = (n / 4 + 1) * 2 :=
    Nat.mod_eq_of_lt (Nat.lt_of_lt_of_le (show (n / 4 + 1) * 2 < 2 ^ 32 by omega) h.big)
  have h3 : (n / 4 + 1) * 2 % size64 = (n / 4 + 1) * 2 :=
    Nat.mod_eq_of_lt (Nat.lt_trans (show (n / 4 + 1) * 2 < 2 ^ 32 by omega) (by decide))
  rw [h2, h3]
  by_cases ht : t = 0
  · rw [if_pos ht, if_pos ht]
  · rw [if_neg ht, if_neg ht, sub_eq (by omega)]

theorem Supported.create (h : M.Supported) {s : Bytes} (hs : s.length < 2 ^ 31) (o : Int) (p : Bool) :
    M.create s o p = BlockHash.create s o p := by
  simp only [Machine.create, BlockHash.create, h.calcTableSize hs]
  by_cases ht : Vcd.calcTableSize s.length = 0
  · rw [if_pos ht, if_pos ht]
  · rw [if_neg ht, if_neg ht, sub_eq (by omega)]

theorem wordValue_inj {a b : Bytes} (hl : a.length = b.length) (h : M.wordValue a = M.wordValue b) : a = b := by
  unfold Machine.wordValue at h
  split at h
  · have := BlockHash.wordValue_inj (by simpa using hl) h
    simpa using this
  · exact BlockHash.wordValue_inj hl h

theorem compareWhole_iff : ∀ (n : Nat) {a b : Bytes}, a.length = M.word * n → b.length = M.word * n →
    (M.compareWholeWordValues n a b = true ↔ a = b)
  | 0, a, b, ha, hb => by
    have h1 : a = [] := List.length_eq_zero_iff.1 ha
    have h2 : b = [] := List.length_eq_zero_iff.1 hb
    simp [compareWholeWordValues, h1, h2]
  | 1, a, b, ha, hb => by
    rw [Nat.mul_one] at ha hb
    rw [compareWholeWordValues, compareOneWord, List.take_of_length_le (by omega), List.take_of_length_le (by omega), beq_iff_eq]
    exact ⟨wordValue_inj (by omega), fun h => by rw [h]⟩
  | n + 2, a, b, ha, hb => by
    have hm : M.word * (n + 2) = M.word * (n + 1) + M.word := rfl
    have h1 : M.compareOneWord a b = true ↔ a.take M.word = b.take M.word := by
      rw [compareOneWord, beq_iff_eq]
      exact ⟨wordValue_inj (by rw [List.length_take, List.length_take]; omega), fun h => by rw [h]⟩
    have h2 := compareWhole_iff (n + 1) (a := a.drop M.word) (b := b.drop M.word)
      (by rw [List.length_drop]; omega) (by rw [List.length_drop]; omega)
    rw [compareWholeWordValues, Bool.and_eq_true, h1, h2]
    constructor
    · rintro ⟨h3, h4⟩
      rw [← List.take_append_drop M.word a, h3, h4, List.take_append_drop]
    · rintro rfl
      exact ⟨rfl, rfl⟩

theorem Supported.blockContentsMatch (h : M.Supported) {a b : Bytes} (ha : a.length = kBlockSize) (hb : b.length = kBlockSize) :
    M.blockContentsMatch a b = BlockHash.blockContentsMatch BlockHash.useBlockCompareWords a b := by
  rw [Bool.eq_iff_iff, BlockHash.blockContentsMatch_iff _ ha hb, Machine.blockContentsMatch]
  split
  · rename_i hh
    simp only [Bool.false_eq_true, false_iff]
    rintro rfl
    exact hh rfl
  · split
    · have hw := Nat.mul_div_cancel' h.2.2
      rw [compareWhole_iff _ (by rw [ha, hw]) (by rw [hb, hw])]
    · exact beq_iff_eq

theorem readBlock_length {d b : Bytes} {p : Nat} (h : readBlock d p = .ok b) : b.length = kBlockSize ∧ p + kBlockSize ≤ d.length := by
  unfold readBlock at h
  split at h
  · rename_i hp
    cases h
    rw [List.length_take, List.length_drop]
    omega
  · cases h

theorem Supported.skipNonMatching (h : M.Supported) {bh : BlockHash} {b : Bytes} (hb : b.length = kBlockSize) :
    ∀ (probes : Nat) (n : Option Nat), M.skipNonMatching bh b probes n = bh.skipNonMatching b probes n := by
  intro probes
  induction probes with
  | zero =>
    intro n
    cases n with
    | none => rfl
    | some n =>
      rw [Machine.skipNonMatching, BlockHash.skipNonMatching]
      refine bind_congr rfl fun c hc => ?_
      rw [h.blockContentsMatch hb (readBlock_length hc).1]
  | succ probes ih =>
    intro n
    cases n with
    | none => rfl
    | some n =>
      rw [Machine.skipNonMatching, BlockHash.skipNonMatching]
      refine bind_congr rfl fun c hc => ?_
      rw [h.blockContentsMatch hb (readBlock_length hc).1]
      simp only [ih]
      rfl

theorem skipNonMatching_inside {bh : BlockHash} {b : Bytes} : ∀ (probes : Nat) {n : Option Nat} {r : Nat},
    bh.skipNonMatching b probes n = .ok (some r) → r * kBlockSize + kBlockSize ≤ bh.source.length := by
  intro probes
  induction probes with
  | zero =>
    intro n r hr
    cases n with
    | none => simp [BlockHash.skipNonMatching] at hr
    | some n =>
      rw [BlockHash.skipNonMatching] at hr
      cases hc : readBlock bh.source (n * kBlockSize) with
      | error f => rw [hc] at hr; cases hr
      | ok c =>
        rw [hc] at hr
        simp only [bind, Except.bind] at hr
        split at hr
        · cases hr; exact (readBlock_length hc).2
        · cases hr
  | succ probes ih =>
    intro n r hr
    cases n with
    | none => simp [BlockHash.skipNonMatching] at hr
    | some n =>
      rw [BlockHash.skipNonMatching] at hr
      cases hc : readBlock bh.source (n * kBlockSize) with
      | error f => rw [hc] at hr; cases hr
      | ok c =>
        rw [hc] at hr
        simp only [bind, Except.bind] at hr
        split at hr
        · cases hr; exact (readBlock_length hc).2
        · split at hr
          · cases hr
          · exact ih hr

theorem Supported.firstMatchingBlock (h : M.Supported) {bh : BlockHash} {b : Bytes} (hb : b.length = kBlockSize) (v : UInt32) :
    M.firstMatchingBlock bh v b = bh.firstMatchingBlock v b := by
  simp only [Machine.firstMatchingBlock, BlockHash.firstMatchingBlock, h.skipNonMatching hb]
  rfl

theorem Supported.nextMatchingBlock (h : M.Supported) {bh : BlockHash} {b : Bytes} (hb : b.length = kBlockSize) (n : Nat) :
    M.nextMatchingBlock bh n b = bh.nextMatchingBlock n b := by
  simp only [Machine.nextMatchingBlock, BlockHash.nextMatchingBlock, h.skipNonMatching hb]
  rfl

theorem first_inside {bh : BlockHash} {b : Bytes} {v : UInt32} {r : Nat} (h : bh.firstMatchingBlock v b = .ok (some r)) :
    r * kBlockSize + kBlockSize ≤ bh.source.length := by
  unfold BlockHash.firstMatchingBlock at h
  split at h
  · cases h
  · exact skipNonMatching_inside _ h

theorem next_inside {bh : BlockHash} {b : Bytes} {n r : Nat} (h : bh.nextMatchingBlock n b = .ok (some r)) :
    r * kBlockSize + kBlockSize ≤ bh.source.length := by
  unfold BlockHash.nextMatchingBlock at h
  split at h
  · cases h
  · split at h
    · cases h
    · exact skipNonMatching_inside _ h

theorem left_le {s t : Bytes} : ∀ {max i j r : Nat}, BlockHash.matchingBytesToLeft s t i j max = .ok r → r ≤ max := by
  intro max
  induction max with
  | zero => intro i j r h; rw [BlockHash.matchingBytesToLeft] at h; cases h; exact Nat.le_refl _
  | succ max ih =>
    intro i j r h
    cases i with
    | zero => simp [BlockHash.matchingBytesToLeft] at h
    | succ i =>
      cases j with
      | zero => simp [BlockHash.matchingBytesToLeft] at h
      | succ j =>
        rw [BlockHash.matchingBytesToLeft] at h
        split at h
        · split at h
          · cases h; omega
          · cases hm : BlockHash.matchingBytesToLeft s t i j max with
            | error f => rw [hm] at h; cases h
            | ok q => rw [hm] at h; cases h; have := ih hm; show q + 1 ≤ _; omega
        · cases h

theorem right_le {s t : Bytes} : ∀ {max i j r : Nat}, BlockHash.matchingBytesToRight s t i j max = .ok r → r ≤ max := by
  intro max
  induction max with
  | zero => intro i j r h; rw [BlockHash.matchingBytesToRight] at h; cases h; exact Nat.le_refl _
  | succ max ih =>
    intro i j r h
    rw [BlockHash.matchingBytesToRight] at h
    split at h
    · split at h
      · cases hm : BlockHash.matchingBytesToRight s t (i + 1) (j + 1) max with
        | error f => rw [hm] at h; cases h
        | ok q => rw [hm] at h; cases h; have := ih hm; show q + 1 ≤ _; omega
      · cases h; omega
    · cases h

/-- A match that is inside of the target. -/
def Fits (target : Bytes) (m : Match) : Prop := m.targetOffset.toNat + m.size ≤ target.length

theorem extendMatch_parts {bh : BlockHash} {t : Bytes} {c n : Nat} {left right : Nat}
    (ht : t.length < 2 ^ 31) (hc : c + kBlockSize ≤ t.length)
    (hl : BlockHash.matchingBytesToLeft bh.source t (n * kBlockSize) c (min (n * kBlockSize) c) = .ok left)
    (hr : BlockHash.matchingBytesToRight bh.source t (n * kBlockSize + kBlockSize) (c + kBlockSize)
      (toInt32 (min (bh.source.length - (n * kBlockSize + kBlockSize)) (t.length - (c + kBlockSize)))).toNat = .ok right) :
    left ≤ c ∧ c + kBlockSize + right ≤ t.length := by
  have h1 := left_le hl
  have h2 := right_le hr
  have h3 : toInt32 (min (bh.source.length - (n * kBlockSize + kBlockSize)) (t.length - (c + kBlockSize))) =
      ((min (bh.source.length - (n * kBlockSize + kBlockSize)) (t.length - (c + kBlockSize)) : Nat) : Int) :=
    Writer.toInt32_eq (by simp only [int32Max]; omega)
  rw [h3] at h2
  omega

theorem Supported.extendMatch (h : M.Supported) {bh : BlockHash} {t : Bytes} {c n : Nat} (best : Match) (ht : t.length < 2 ^ 31)
    (hc : c + kBlockSize ≤ t.length) (hn : n * kBlockSize + kBlockSize ≤ bh.source.length) :
    M.extendMatch bh t c n best = bh.extendMatch t c n best ∧
      ∀ r, bh.extendMatch t c n best = .ok r → Fits t best → Fits t r := by
  have s1 : M.sub bh.source.length (n * kBlockSize + kBlockSize) = bh.source.length - (n * kBlockSize + kBlockSize) := sub_eq hn
  have s2 : M.sub t.length (c + kBlockSize) = t.length - (c + kBlockSize) := sub_eq hc
  have s3 : szSub bh.source.length (n * kBlockSize + kBlockSize) = bh.source.length - (n * kBlockSize + kBlockSize) := if_pos hn
  have s4 : szSub t.length (c + kBlockSize) = t.length - (c + kBlockSize) := if_pos hc
  unfold Machine.extendMatch BlockHash.extendMatch
  simp only [s1, s2, s3, s4]
  constructor
  · refine bind_congr rfl fun left hl => bind_congr rfl fun right hr => ?_
    obtain ⟨h1, h2⟩ := extendMatch_parts ht hc hl hr
    rw [h.add (a := kBlockSize) (b := left) (by omega), h.add (by omega)]
  · intro r hr hb
    simp only [bind, Except.bind] at hr
    split at hr
    · cases hr
    · rename_i left hl
      split at hr
      · cases hr
      · rename_i right hrt
        obtain ⟨h1, h2⟩ := extendMatch_parts ht hc hl hrt
        split at hr
        · cases hr
        · cases hr
          unfold Match.replaceIfBetter
          split
          · simp only [Fits, Int.toNat_natCast]; omega
          · exact hb

theorem Supported.bestMatchLoop (h : M.Supported) {bh : BlockHash} {t b : Bytes} {c : Nat} (ht : t.length < 2 ^ 31)
    (hc : c + kBlockSize ≤ t.length) (hb : b.length = kBlockSize) : ∀ (k : Nat) (n : Option Nat) (best : Match),
    (∀ r, n = some r → r * kBlockSize + kBlockSize ≤ bh.source.length) →
    M.bestMatchLoop bh t b c k n best = bh.bestMatchLoop t b c k n best ∧
      ∀ r, bh.bestMatchLoop t b c k n best = .ok r → Fits t best → Fits t r := by
  intro k
  induction k with
  | zero =>
    intro n best hn
    cases n <;> (refine ⟨by simp only [Machine.bestMatchLoop, BlockHash.bestMatchLoop], fun r hr hf => ?_⟩
                 rw [BlockHash.bestMatchLoop] at hr; cases hr; exact hf)
  | succ k ih =>
    intro n best hn
    cases n with
    | none =>
      refine ⟨by simp only [Machine.bestMatchLoop, BlockHash.bestMatchLoop], fun r hr hf => ?_⟩
      rw [BlockHash.bestMatchLoop] at hr; cases hr; exact hf
    | some n =>
      obtain ⟨e1, e2⟩ := h.extendMatch best ht hc (hn n rfl)
      rw [Machine.bestMatchLoop, BlockHash.bestMatchLoop]
      constructor
      · refine bind_congr e1 fun best' _ => bind_congr (h.nextMatchingBlock hb n) fun n' hn' => ?_
        exact (ih n' best' fun r hr => next_inside (by rw [hn', hr])).1
      · intro r hr hf
        simp only [bind, Except.bind] at hr
        split at hr
        · cases hr
        · rename_i best' hb'
          split at hr
          · cases hr
          · rename_i n' hn'
            exact (ih n' best' fun r hr => next_inside (by rw [hn', hr])).2 r hr (e2 _ hb' hf)

theorem Supported.findBestMatch (h : M.Supported) (bh : BlockHash) (v : UInt32) {t : Bytes} (c : Nat) (best : Match)
    (ht : t.length < 2 ^ 31) : M.findBestMatch bh v t c best = bh.findBestMatch v t c best ∧
      ∀ r, bh.findBestMatch v t c best = .ok r → Fits t best → Fits t r := by
  unfold Machine.findBestMatch BlockHash.findBestMatch
  constructor
  · refine bind_congr rfl fun b hb => ?_
    obtain ⟨b1, b2⟩ := readBlock_length hb
    refine bind_congr (h.firstMatchingBlock b1 v) fun n hn => ?_
    exact (h.bestMatchLoop ht b2 b1 _ n best fun r hr => first_inside (by rw [hn, hr])).1
  · intro r hr hf
    simp only [bind, Except.bind] at hr
    split at hr
    · cases hr
    · rename_i b hb
      obtain ⟨b1, b2⟩ := readBlock_length hb
      split at hr
      · cases hr
      · rename_i n hn
        exact (h.bestMatchLoop ht b2 b1 _ n best fun r hr => first_inside (by rw [hn, hr])).2 r hr hf

/-! ## The engine -/

theorem Supported.initCall (h : M.Supported) {e : Engine} (hd : e.dictionary.length < 2 ^ 31) : M.initCall e = e.initCall := by
  simp only [Machine.initCall, Engine.initCall, h.create hd]
  rfl

theorem Supported.bestMatch (h : M.Supported) (bh : BlockHash) (th : Option BlockHash) (v : UInt32) {t : Bytes} (c : Nat)
    (ht : t.length < 2 ^ 31) : M.bestMatch bh th v t c = Engine.bestMatch bh th v t c ∧
      ∀ r, Engine.bestMatch bh th v t c = .ok r → Fits t r := by
  obtain ⟨h1, h2⟩ := h.findBestMatch bh v c {} ht
  unfold Machine.bestMatch Engine.bestMatch
  rw [h1]
  have h0 : Fits t {} := by simp [Fits]
  cases hf : bh.findBestMatch v t c {} with
  | error f => exact ⟨rfl, fun r hr => by cases hr⟩
  | ok best =>
    have h3 := h2 _ hf h0
    cases th with
    | none => exact ⟨rfl, fun r hr => by cases hr; exact h3⟩
    | some th =>
      obtain ⟨h4, h5⟩ := h.findBestMatch th v c best ht
      exact ⟨h4, fun r hr => h5 r hr h3⟩

theorem Supported.encodeCopy (h : M.Supported) (bh : BlockHash) (th : Option BlockHash) (v : UInt32) {t : Bytes} (c : Nat)
    (ht : t.length < 2 ^ 31) : M.encodeCopyForBestMatch bh th v t c = Engine.encodeCopyForBestMatch bh th v t c := by
  obtain ⟨h1, h2⟩ := h.bestMatch bh th v c ht
  unfold Machine.encodeCopyForBestMatch Engine.encodeCopyForBestMatch
  refine bind_congr h1 fun best hb => ?_
  have hf : best.targetOffset.toNat + best.size ≤ t.length := h2 _ hb
  rw [h.add (by omega)]

theorem Supported.encodeLoop (h : M.Supported) (bh : BlockHash) {t : Bytes} (ht : t.length < 2 ^ 31) : ∀ (fuel ne c : Nat) (v : UInt32)
    (th : Option BlockHash) (calls : List CoderCall), M.encodeLoop bh t fuel ne c v th calls = Engine.encodeLoop bh t fuel ne c v th calls := by
  intro fuel
  induction fuel with
  | zero => intros; rfl
  | succ fuel ih =>
    intro ne c v th calls
    have hd : (t.drop ne).length < 2 ^ 31 := by rw [List.length_drop]; omega
    rw [Machine.encodeLoop, Engine.encodeLoop]
    refine bind_congr (h.encodeCopy bh th v _ hd) fun p _ => ?_
    obtain ⟨n, made⟩ := p
    simp only [ih]
    rfl

theorem Supported.engineEncode (h : M.Supported) (e : Engine) (look : Bool) {t : Bytes} (ht : t.length < 2 ^ 31) :
    M.engineEncode e look t = e.encode look t := by
  have hc : M.createTargetHash e look t = e.createTargetHash look t := by
    simp only [Machine.createTargetHash, Engine.createTargetHash, h.create ht]
    rfl
  unfold Machine.engineEncode Engine.encode
  simp only [hc, h.encodeLoop _ ht]
  rfl

/-! ## The code table writer -/

theorem encodeInstruction_keeps {w w' : Writer} {inst : UInt8} {size mode : Nat} (h : w.encodeInstruction inst size mode = .ok w') :
    w'.dictionarySize = w.dictionarySize ∧ w'.targetLength = w.targetLength := by
  unfold Writer.encodeInstruction at h
  split at h
  · cases h
  · split at h
    · cases h
    · rename_i explicit _
      cases hs : Writer.sizeOperand explicit size with
      | error f => rw [hs] at h; cases h
      | ok bs => rw [hs] at h; cases h; exact ⟨rfl, rfl⟩
    · split at h
      · cases h
      · rename_i explicit _
        cases hs : Writer.sizeOperand explicit size with
        | error f => rw [hs] at h; cases h
        | ok bs => rw [hs] at h; cases h; exact ⟨rfl, rfl⟩

theorem appendData_keeps (w : Writer) (bs : Bytes) :
    (w.appendData bs).dictionarySize = w.dictionarySize ∧ (w.appendData bs).targetLength = w.targetLength := by
  unfold Writer.appendData; split <;> exact ⟨rfl, rfl⟩

theorem appendAddr_keeps (w : Writer) (bs : Bytes) :
    (w.appendAddr bs).dictionarySize = w.dictionarySize ∧ (w.appendAddr bs).targetLength = w.targetLength := by
  unfold Writer.appendAddr; split <;> exact ⟨rfl, rfl⟩

/-- How much target a call writes. -/
def spanOf : CoderCall → Nat
  | .add bs => bs.length
  | .copy _ n => n
  | .run n _ => n
  | .output => 0

theorem Supported.deltaLength (h : M.Supported) {w : Writer} (hl : w.deltaLength < 2 ^ 32) : M.deltaLength w = w.deltaLength := by
  unfold Writer.deltaLength at hl ⊢
  unfold Machine.deltaLength
  simp only
  have h0 : w.checksum.isSome = false → Writer.checksumLength w.checksum = 0 := by
    cases w.checksum with
    | none => intro; rfl
    | some c => intro h; cases h
  generalize Writer.sizeLength w.targetLength = a at *
  generalize Writer.sizeLength w.data.length = b at *
  generalize Writer.sizeLength w.inst.length = c at *
  generalize Writer.sizeLength w.addr.length = d at *
  generalize w.data.length = e at *
  generalize w.inst.length = f at *
  generalize w.addr.length = g at *
  generalize Writer.checksumLength w.checksum = k at *
  rw [h.add (show a + 1 < 2 ^ 32 by omega), h.add (show a + 1 + b < 2 ^ 32 by omega), h.add (show a + 1 + b + c < 2 ^ 32 by omega),
    h.add (show a + 1 + b + c + d < 2 ^ 32 by omega), h.add (show a + 1 + b + c + d + e < 2 ^ 32 by omega),
    h.add (show a + 1 + b + c + d + e + f < 2 ^ 32 by omega), h.add (show a + 1 + b + c + d + e + f + g < 2 ^ 32 by omega)]
  split
  · exact h.add (by omega)
  · rename_i hc
    have := h0 (by simpa using hc)
    omega

theorem windowBytes_length {w : Writer} {out : Bytes} (h : w.windowBytes = .ok out) : w.deltaLength ≤ out.length := by
  unfold Writer.windowBytes at h
  simp only [bind, Except.bind] at h
  split at h
  · cases h
  · split at h
    · cases h
    · split at h
      · cases h
      · split at h
        · cases h
        · split at h
          · cases h
          · rename_i hne
            cases h
            simp only [ne_eq, Decidable.not_not] at hne
            rw [hne]
            simp only [List.length_append]
            omega

theorem Supported.writerCall (h : M.Supported) {w w' : Writer} {c : CoderCall} {out : Bytes} (hc : w.call c = .ok (out, w'))
    (hs : w.dictionarySize + w.targetLength + spanOf c < 2 ^ 32) (ho : out.length < 2 ^ 32) :
    M.writerCall w c = .ok (out, w') ∧ w'.dictionarySize = w.dictionarySize ∧ w'.targetLength ≤ w.targetLength + spanOf c := by
  have adv : ∀ {v : Writer} {n : Nat}, v.dictionarySize = w.dictionarySize ∧ v.targetLength = w.targetLength → spanOf c = n →
      M.advance v n = v.advance n := by
    intro v n hv hn
    unfold Machine.advance Writer.advance
    rw [h.add (by omega)]
  cases c with
  | add bs =>
    simp only [Writer.call, Writer.add, Machine.writerCall, Machine.writerAdd] at hc ⊢
    cases he : w.encodeInstruction vcdAdd bs.length 0 with
    | error f => rw [he] at hc; cases hc
    | ok v =>
      rw [he] at hc
      have hv := encodeInstruction_keeps he
      have ha := appendData_keeps v bs
      have hk : (v.appendData bs).dictionarySize = w.dictionarySize ∧ (v.appendData bs).targetLength = w.targetLength :=
        ⟨ha.1.trans hv.1, ha.2.trans hv.2⟩
      simp only [Except.map, Except.ok.injEq, Prod.mk.injEq] at hc ⊢
      rw [adv (n := bs.length) hk rfl]
      refine ⟨hc, ?_, ?_⟩
      · rw [← hc.2]; exact hk.1
      · rw [← hc.2]; simp only [Writer.advance, hk.2, spanOf]; omega
  | run n b =>
    simp only [Writer.call, Writer.run, Machine.writerCall, Machine.writerRun] at hc ⊢
    cases he : w.encodeInstruction vcdRun n 0 with
    | error f => rw [he] at hc; cases hc
    | ok v =>
      rw [he] at hc
      have hv := encodeInstruction_keeps he
      have ha := appendData_keeps v [b]
      have hk : (v.appendData [b]).dictionarySize = w.dictionarySize ∧ (v.appendData [b]).targetLength = w.targetLength :=
        ⟨ha.1.trans hv.1, ha.2.trans hv.2⟩
      simp only [Except.map, Except.ok.injEq, Prod.mk.injEq] at hc ⊢
      rw [adv (n := n) hk rfl]
      refine ⟨hc, ?_, ?_⟩
      · rw [← hc.2]; exact hk.1
      · rw [← hc.2]; simp only [Writer.advance, hk.2, spanOf]; omega
  | copy a n =>
    simp only [Writer.call, Writer.copy, Machine.writerCall, Machine.writerCopy] at hc ⊢
    rw [h.add (by omega)]
    cases hm : w.map with
    | none => rw [hm] at hc; cases hc
    | some m =>
      rw [hm] at hc
      simp only at hc ⊢
      cases hea : w.cache.encodeAddress a (toInt32 (w.dictionarySize + w.targetLength)) with
      | fault f => rw [hea] at hc; cases hc
      | ok mode encoded cache =>
        rw [hea] at hc
        simp only at hc ⊢
        cases he : ({ w with cache, map := some m } : Writer).encodeInstruction vcdCopy n mode with
        | error f => rw [he] at hc; cases hc
        | ok v =>
          rw [he] at hc
          simp only at hc ⊢
          cases hb : v.cache.addressBytes mode encoded with
          | none => rw [hb] at hc; cases hc
          | some bs =>
            rw [hb] at hc
            have hv := encodeInstruction_keeps he
            have ha := appendAddr_keeps v bs
            have hk : (v.appendAddr bs).dictionarySize = w.dictionarySize ∧ (v.appendAddr bs).targetLength = w.targetLength :=
              ⟨ha.1.trans hv.1, ha.2.trans hv.2⟩
            simp only [Except.map, Except.ok.injEq, Prod.mk.injEq] at hc ⊢
            rw [adv (n := n) hk rfl]
            refine ⟨hc, ?_, ?_⟩
            · rw [← hc.2]; exact hk.1
            · rw [← hc.2]; simp only [Writer.advance, hk.2, spanOf]; omega
  | output =>
    simp only [Writer.call, Machine.writerCall] at hc ⊢
    have keep : w'.dictionarySize = w.dictionarySize ∧ w'.targetLength = 0 ∧ (w.inst ≠ [] → w.windowBytes = .ok out) := by
      unfold Writer.output at hc
      split at hc
      · cases hc
      · rename_i o hw
        split at hc
        · cases hc
        · cases hc
        · rename_i v hi
          cases hc
          refine ⟨?_, ?_, ?_⟩
          · unfold Writer.init at hi
            simp only at hi
            split at hi
            · cases hi
            · rename_i v' hv'
              split at hi
              · cases hi
              · cases hi
                split at hv'
                · cases hv'; rfl
                · rename_i hmap
                  simp only [Option.map_eq_some_iff] at hv'
                  obtain ⟨_, _, rfl⟩ := hv'
                  rfl
          · unfold Writer.init at hi
            simp only at hi
            split at hi
            · cases hi
            · split at hi
              · cases hi
              · cases hi; rfl
          · intro hne
            rw [if_neg hne] at hw
            exact hw
    refine ⟨?_, keep.1, by omega⟩
    unfold Machine.writerOutput
    unfold Writer.output at hc
    by_cases hi : w.inst = []
    · simp only [if_pos hi] at hc ⊢; exact hc
    · have hd := h.deltaLength (w := w) (Nat.lt_of_le_of_lt (windowBytes_length (keep.2.2 hi)) ho)
      have hw : M.windowBytes w = w.windowBytes := by
        unfold Machine.windowBytes Writer.windowBytes
        rw [hd]
      rw [hw]
      exact hc

theorem Supported.writerCalls (h : M.Supported) : ∀ (cs : List CoderCall) {w w' : Writer} {out : Bytes}, w.calls cs = .ok (out, w') →
    w.dictionarySize + w.targetLength + (cs.map spanOf).sum < 2 ^ 32 → out.length < 2 ^ 32 → M.writerCalls w cs = .ok (out, w') := by
  intro cs
  induction cs with
  | nil => intro w w' out hc _ _; exact hc
  | cons c cs ih =>
    intro w w' out hc hs ho
    rw [Writer.calls] at hc
    rw [Machine.writerCalls]
    rw [List.map_cons, List.sum_cons] at hs
    cases h1 : w.call c with
    | error f => rw [h1] at hc; cases hc
    | ok p =>
      obtain ⟨o, v⟩ := p
      rw [h1] at hc
      simp only at hc
      cases h2 : v.calls cs with
      | error f => rw [h2] at hc; cases hc
      | ok q =>
        obtain ⟨o2, v2⟩ := q
        rw [h2] at hc
        simp only [Except.map, Except.ok.injEq, Prod.mk.injEq] at hc
        obtain ⟨rfl, rfl⟩ := hc
        rw [List.length_append] at ho
        obtain ⟨k1, k2, k3⟩ := h.writerCall h1 (by omega) (by omega)
        rw [k1]
        simp only
        rw [ih h2 (by omega) (by omega)]
        rfl

/-! ## The encoder -/

theorem sizes_of_calls (ops : List Op) : ((ops.map Op.call ++ [CoderCall.output]).map spanOf).sum = sizes ops := by
  simp only [List.map_append, List.map_map, List.map_cons, List.map_nil, List.sum_append, List.sum_cons, List.sum_nil, spanOf,
    Nat.add_zero, sizes]
  congr 1
  apply List.map_congr_left
  intro o _
  cases o <;> rfl

theorem Supported.chunk_binary (h : M.Supported) {e0 e : Encoder} {dict : Bytes} {m : InstructionMap} (u : Writer.Usable defaultCoding 8 m)
    (he : Engine.init dict = .ok (some e0.engine)) (hd : e0.engine.dictionary = dict) (hi : Encoder.Inv e0 m e) {data : Bytes}
    (hs : Encoder.Small dict data) : M.chunk e data = e.chunk data := by
  obtain ⟨h1, h2, h3, w, h4, h5, h6, h7⟩ := hi
  unfold Machine.chunk Encoder.chunk
  cases ha : e.allowed with
  | false => rfl
  | true =>
    have hr := h7.resolve_left (fun h => by rw [ha] at h; cases h.2)
    obtain ⟨k1, k2⟩ := Encoder.chunkWriter_ready hr h5 h6 data
    simp only [h4, h1, h2, h3, k1, h.engineEncode _ _ (show data.length < 2 ^ 31 by have := hs.1; omega), Bool.not_true,
      Bool.false_eq_true, if_false]
    rcases Encoder.window_spec u he hs (by rw [← hd]; exact k2) with ⟨_, _, w2⟩ | ⟨hne, calls, w1, w2, w3, _⟩
    · simp only [w2]; rfl
    · obtain ⟨e', ops, j1, j2, j3, j4⟩ := Engine.encode_whole (dict := dict) (target := data)
        (matching := e0.lookForTargetMatches) (by simp only [int32Max]; have := hs.1; omega) hne
      rw [he] at j1
      injection j1 with j1
      injection j1 with j1
      subst j1
      rw [w1] at j3
      injection j3 with j3
      have hT : data.length = sizes ops := by
        have := execOps_length ops dict
        rw [j4.exec, List.length_append] at this; omega
      have hw := h.writerCalls calls w2
        (by rw [j3, sizes_of_calls, ← hT]
            simp only [Encoder.chunkWriter, hd]
            have := hs.1; omega)
        (by have := hs.2; omega)
      simp only [w1, w2, hw]

theorem Supported.chunk_json (h : M.Supported) {e : Encoder} {w : JsonWriter} (hw : e.coder = .json w) {data : Bytes}
    (hs : data.length < 2 ^ 31) : M.chunk e data = e.chunk data := by
  unfold Machine.chunk Encoder.chunk
  simp only [hw, h.engineEncode _ _ hs]
  rfl

theorem Supported.pairCalls_json (h : M.Supported) (cs : List PairCall) : ∀ (e : Encoder), (∃ w, e.coder = .json w) →
    e.engine.dictionary.length < 2 ^ 31 → EachPairChunk (fun d => d.length < 2 ^ 31) cs → M.pairCalls e cs = e.pairCalls cs := by
  induction cs with
  | nil => intros; rfl
  | cons c cs ih =>
    rintro e ⟨w, hw⟩ hd hs
    have hs' : EachPairChunk (fun d => d.length < 2 ^ 31) cs := fun data hm => hs data (List.mem_cons_of_mem _ hm)
    have h1 : M.pairCall e c = e.pairCall c := by
      cases c with
      | init => simp only [Machine.pairCall, Encoder.pairCall, h.initCall hd]; rfl
      | encoder c =>
        cases c with
        | start => rfl
        | finish => rfl
        | chunk data =>
          simp only [Machine.pairCall, Encoder.pairCall, Encoder.call, h.chunk_json hw (hs data (List.mem_cons_self ..))]
    rw [Machine.pairCalls, Encoder.pairCalls, h1]
    cases h2 : e.pairCall c with
    | error f => rfl
    | ok p =>
      obtain ⟨r, e'⟩ := p
      have h3 : (∃ w, e'.coder = .json w) ∧ e'.engine.dictionary = e.engine.dictionary := by
        cases c with
        | init =>
          simp only [Encoder.pairCall] at h2
          split at h2
          · cases h2
          · rename_i ret engine hi
            cases h2
            refine ⟨⟨w, hw⟩, ?_⟩
            unfold Engine.initCall at hi
            split at hi
            · cases hi
            · split at hi
              · cases hi
              · cases hi
              · cases hi; rfl
        | encoder c =>
          cases c with
          | start =>
            simp only [Encoder.pairCall, Encoder.call, Encoder.start, hw] at h2
            split at h2 <;> (cases h2; exact ⟨⟨_, rfl⟩, rfl⟩)
          | finish =>
            simp only [Encoder.pairCall, Encoder.call, Encoder.finish, hw] at h2
            split at h2 <;> cases h2
            · exact ⟨⟨w, hw⟩, rfl⟩
            · exact ⟨⟨w, rfl⟩, rfl⟩
          | chunk data =>
            simp only [Encoder.pairCall, Encoder.call, Encoder.chunk, hw] at h2
            split at h2
            · cases h2; exact ⟨⟨w, hw⟩, rfl⟩
            · split at h2
              · cases h2; exact ⟨⟨w, hw⟩, rfl⟩
              · split at h2
                · cases h2
                · cases h2; exact ⟨⟨_, rfl⟩, rfl⟩
      simp only [ih e' h3.1 (by rw [h3.2]; exact hd) hs']

theorem Supported.pairCalls_binary (h : M.Supported) {dict : Bytes} (hdict : dict.length < 2 ^ 31) {flags : Nat} {matching : Bool}
    {m : InstructionMap} (u : Writer.Usable defaultCoding 8 m) {engine : Engine} (he : Engine.init dict = .ok (some engine))
    (cs : List PairCall) : ∀ (e : Encoder),
      (∃ inited, Encoder.Inv (Encoder.new (engineWhen dict engine inited) flags matching) m e) →
      EachPairChunk (Encoder.Small dict) cs → M.pairCalls e cs = e.pairCalls cs := by
  obtain ⟨i1, i2, i3⟩ := Engine.initCall_first he
  induction cs with
  | nil => intros; rfl
  | cons c cs ih =>
    intro e hi hs
    have hs' : EachPairChunk (Encoder.Small dict) cs := fun data hm => hs data (List.mem_cons_of_mem _ hm)
    have hd : e.engine.dictionary = dict := by
      obtain ⟨inited, hi⟩ := hi
      rw [hi.engine]
      cases inited
      · rfl
      · exact i3
    have h1 : M.pairCall e c = e.pairCall c := by
      cases c with
      | init => simp only [Machine.pairCall, Encoder.pairCall, h.initCall (e := e.engine) (by rw [hd]; exact hdict)]; rfl
      | encoder c =>
        cases c with
        | start => rfl
        | finish => rfl
        | chunk data =>
          have hsm := hs data (List.mem_cons_self ..)
          have hc : M.chunk e data = e.chunk data := by
            obtain ⟨inited, hi⟩ := hi
            cases inited with
            | true => exact h.chunk_binary u (e0 := Encoder.new engine flags matching) he i3 hi hsm
            | false =>
              have hen : e.engine = ⟨dict, none⟩ := hi.engine
              unfold Machine.chunk Encoder.chunk
              simp only [h.engineEncode _ _ (show data.length < 2 ^ 31 by have := hsm.1; omega), hen, Engine.encode]
              obtain ⟨w, hw, _⟩ := hi.coder
              simp only [hw]
          simp only [Machine.pairCall, Encoder.pairCall, Encoder.call, hc]
    rw [Machine.pairCalls, Encoder.pairCalls, h1]
    cases h2 : e.pairCall c with
    | error f => rfl
    | ok p =>
      obtain ⟨r, e'⟩ := p
      have h3 : Release.pairCall e c = .ok (r, e') := Release.ok_of_agrees (Release.pairCall_agrees _ _) h2
      have h4 := Encoder.tidy_binary u he hi (c := c)
        (fun d hm => hs d (by rw [List.mem_singleton] at hm; rw [hm]; exact List.mem_cons_self ..)) h3
      simp only [ih e' h4 hs']

end Machine

theorem Encoder.pairCalls_of_calls : ∀ (cs : List EncoderCall) {e e' : Encoder} {rs : List EncoderReply}, e.calls cs = .ok (rs, e') →
    e.pairCalls (cs.map .encoder) = (rs, none) := by
  intro cs
  induction cs with
  | nil => intro e e' rs h; cases h; rfl
  | cons c cs ih =>
    intro e e' rs h
    rw [Encoder.calls] at h
    split at h
    · cases h
    · rename_i r e1 h1
      split at h
      · cases h
      · rename_i rs' e2 h2
        cases h
        simp only [List.map_cons, Encoder.pairCalls, Encoder.pairCall, h1, ih h2]

theorem Decoder.calls_of_feed : ∀ (cs : List Bytes) {d d' : Decoder} {out : Bytes}, d.feed cs = some (out, d') →
    ∃ rs, d.calls (cs.map .chunk ++ [.finish]) = .ok (rs ++ [⟨d'.finish.1, []⟩], d'.finish.2) ∧ (∀ r ∈ rs, r.ret = true) ∧
      rs.flatMap (·.out) = out := by
  intro cs
  induction cs with
  | nil => intro d d' out h; cases h; exact ⟨[], rfl, by simp, rfl⟩
  | cons c cs ih =>
    intro d d' out h
    rw [Decoder.feed] at h
    split at h
    · rename_i L nested o ho
      split at h
      · rename_i outs d1 h1
        cases h
        obtain ⟨rs, k1, k2, k3⟩ := ih h1
        refine ⟨⟨true, o⟩ :: rs, ?_, ?_, ?_⟩
        · simp only [List.map_cons, List.cons_append, Decoder.calls, Decoder.call, ho, k1]
        · intro r hr
          rcases List.mem_cons.1 hr with rfl | hr
          · rfl
          · exact k2 r hr
        · rw [List.flatMap_cons, k3]
      · cases h
    · cases h

theorem Decoder.calls_of_decode {d : Decoder} {dict out : Bytes} {cs : List Bytes} (h : d.decode dict cs = some out) :
    ∃ rs d', d.calls (.start dict :: cs.map .chunk ++ [.finish]) = .ok (rs, d') ∧ (∀ r ∈ rs, r.ret = true) ∧
      rs.flatMap (·.out) = out := by
  unfold Decoder.decode at h
  split at h
  · rename_i o d1 h1
    split at h
    · rename_i hf
      cases h
      obtain ⟨rs, k1, k2, k3⟩ := Decoder.calls_of_feed cs h1
      refine ⟨⟨true, []⟩ :: (rs ++ [⟨d1.finish.1, []⟩]), d1.finish.2, ?_, ?_, ?_⟩
      · simp only [List.cons_append, Decoder.calls, Decoder.call, k1]
      · intro r hr
        rcases List.mem_cons.1 hr with rfl | hr
        · rfl
        · rcases List.mem_append.1 hr with hr | hr
          · exact k2 r hr
          · rw [List.mem_singleton] at hr; rw [hr]; exact hf
      · simp [k3]
    · cases h
  · cases h

end Vcd
