import Verif.Spec.Rfc
import Verif.Proof.Loop

/-!
# Window headers and their grammar
-/

namespace Vcd
open Spec

theorem parseSize_iff {s : Bytes} {v : Nat} {r : Bytes} :
    parseSize s = .ok v r ↔ ∃ bs, s = bs ++ r ∧ NumCode bs v := parseInt32_ok_iff s v r

theorem parseByte_iff {s : Bytes} {b : UInt8} {r : Bytes} : parseByte s = .ok b r ↔ s = [b] ++ r := by
  cases s with
  | nil => simp [parseByte]
  | cons c s => simp [parseByte]

/-- Length and position of the source segment. -/
def SegCode (allowTarget : Bool) (dictSize decodedSize : Nat) (ind : UInt8) (seg : Bytes) (len pos : Nat) : Prop :=
  (ind &&& 3 = 0 ∧ seg = [] ∧ len = 0 ∧ pos = 0) ∨
  (ind &&& 3 = 1 ∧ ∃ lb pb, seg = lb ++ pb ∧ NumCode lb len ∧ NumCode pb pos ∧ pos + len ≤ dictSize) ∨
  (ind &&& 3 = 2 ∧ allowTarget = true ∧ ∃ lb pb, seg = lb ++ pb ∧ NumCode lb len ∧ NumCode pb pos ∧
    pos + len ≤ decodedSize)

theorem parseSourceSegment_iff {n : Nat} {s : Bytes} {lp : Nat × Nat} {r : Bytes} :
    parseSourceSegment n s = .ok lp r ↔
      ∃ lb pb, s = (lb ++ pb) ++ r ∧ NumCode lb lp.1 ∧ NumCode pb lp.2 ∧ lp.2 + lp.1 ≤ n := by
  unfold parseSourceSegment
  constructor
  · intro h
    obtain ⟨len, s1, h1, h2⟩ := Parsed.bind_eq_ok.1 h
    split at h2
    · simp at h2
    obtain ⟨pos, s2, h3, h4⟩ := Parsed.bind_eq_ok.1 h2
    split at h4
    · simp at h4
    split at h4
    · simp at h4
    rename_i hle
    simp only [Parsed.ok.injEq] at h4
    obtain ⟨rfl, rfl⟩ := h4
    obtain ⟨lb, rfl, hl⟩ := parseSize_iff.1 h1
    obtain ⟨pb, rfl, hp⟩ := parseSize_iff.1 h3
    exact ⟨lb, pb, by simp, hl, hp, by simpa using hle⟩
  · rintro ⟨lb, pb, rfl, hl, hp, hle⟩
    obtain ⟨len, pos⟩ := lp
    simp only at hl hp hle
    rw [List.append_assoc, parseSize_iff.2 ⟨lb, rfl, hl⟩, Parsed.bind_ok, if_neg (by omega),
      parseSize_iff.2 ⟨pb, rfl, hp⟩, Parsed.bind_ok, if_neg (by omega), if_neg (by omega)]

theorem flags_eq : vcdSource ||| vcdTarget = 3 := by decide

theorem flags_cases : ∀ b : UInt8, b &&& 3 = 0 ∨ b &&& 3 = 1 ∨ b &&& 3 = 2 ∨ b &&& 3 = 3 := by
  apply forall_byte; decide +kernel

theorem parseWinIndicator_iff {n m : Nat} {al : Bool} {s : Bytes} {isp : UInt8 × Nat × Nat} {r : Bytes} :
    parseWinIndicator n m al s = .ok isp r ↔
      ∃ seg, s = [isp.1] ++ seg ++ r ∧ SegCode al n m isp.1 seg isp.2.1 isp.2.2 := by
  obtain ⟨ind, len, pos⟩ := isp
  unfold parseWinIndicator
  rw [Parsed.bind_eq_ok]
  simp only [flags_eq]
  constructor
  · rintro ⟨b, s1, h1, h2⟩
    rw [parseByte_iff] at h1
    subst h1
    rw [show vcdSource = 1 from rfl, show vcdTarget = 2 from rfl] at h2
    rcases flags_cases b with h | h | h | h <;> rw [h] at h2
    · simp only [show ((0 : UInt8) = 1) = False by decide, show ((0 : UInt8) = 2) = False by decide,
        show ((0 : UInt8) = 3) = False by decide, if_false, Parsed.ok.injEq, Prod.mk.injEq] at h2
      obtain ⟨⟨rfl, rfl, rfl⟩, rfl⟩ := h2
      exact ⟨[], by simp, Or.inl ⟨h, rfl, rfl, rfl⟩⟩
    · rw [if_pos rfl] at h2
      obtain ⟨lp, s2, h3, h4⟩ := Parsed.bind_eq_ok.1 h2
      simp only [Parsed.ok.injEq, Prod.mk.injEq] at h4
      obtain ⟨⟨rfl, rfl, rfl⟩, rfl⟩ := h4
      obtain ⟨lb, pb, rfl, h5⟩ := parseSourceSegment_iff.1 h3
      exact ⟨lb ++ pb, by simp, Or.inr (Or.inl ⟨h, lb, pb, rfl, h5⟩)⟩
    · rw [if_neg (by decide), if_pos rfl] at h2
      cases al with
      | false => simp at h2
      | true =>
        rw [if_neg (by simp)] at h2
        obtain ⟨lp, s2, h3, h4⟩ := Parsed.bind_eq_ok.1 h2
        simp only [Parsed.ok.injEq, Prod.mk.injEq] at h4
        obtain ⟨⟨rfl, rfl, rfl⟩, rfl⟩ := h4
        obtain ⟨lb, pb, rfl, h5⟩ := parseSourceSegment_iff.1 h3
        exact ⟨lb ++ pb, by simp, Or.inr (Or.inr ⟨h, rfl, lb, pb, rfl, h5⟩)⟩
    · rw [if_neg (by decide), if_neg (by decide), if_pos rfl] at h2
      simp at h2
  · rintro ⟨seg, rfl, h⟩
    refine ⟨ind, seg ++ r, parseByte_iff.2 (by simp), ?_⟩
    rw [show vcdSource = 1 from rfl, show vcdTarget = 2 from rfl]
    rcases h with ⟨h, rfl, rfl, rfl⟩ | ⟨h, lb, pb, rfl, h5⟩ | ⟨h, rfl, lb, pb, rfl, h5⟩
    · rw [h, if_neg (by decide), if_neg (by decide), if_neg (by decide)]
      rfl
    · rw [h, if_pos rfl, (parseSourceSegment_iff (lp := (len, pos))).2 ⟨lb, pb, rfl, h5⟩]
      rfl
    · rw [h, if_neg (by decide), if_pos rfl, if_neg (by simp),
        (parseSourceSegment_iff (lp := (len, pos))).2 ⟨lb, pb, rfl, h5⟩]
      rfl

theorem parseDeltaIndicator_iff {s : Bytes} {u : Unit} {r : Bytes} :
    parseDeltaIndicator s = .ok u r ↔ ∃ di : UInt8, s = [di] ++ r ∧ di &&& 7 = 0 := by
  unfold parseDeltaIndicator
  rw [Parsed.bind_eq_ok]
  constructor
  · rintro ⟨b, s1, h1, h2⟩
    rw [parseByte_iff] at h1
    split at h2
    · simp at h2
    · rename_i h3
      simp only [Parsed.ok.injEq] at h2
      exact ⟨b, by rw [h1, h2.2], by simpa using h3⟩
  · rintro ⟨di, rfl, h⟩
    exact ⟨di, r, parseByte_iff.2 rfl, by rw [if_neg (by simpa using h)]⟩

/-- The checksum field as read. -/
def CksCode (present : Bool) (ck : Option Nat) (bs : Bytes) : Prop :=
  if present = true then ∃ v, ck = some v ∧ IsVarint bs ∧ varintValue bs = v ∧ v ≤ 0xFFFFFFFF
  else ck = none ∧ bs = []

theorem sectionFields_iff {hc : Bool} {s : Bytes} {l : SectionLengths} {r : Bytes} :
    sectionFields hc s = .ok l r ↔
      ∃ dlen ilen alen cks, s = dlen ++ ilen ++ alen ++ cks ++ r ∧ NumCode dlen l.dataLen ∧
        NumCode ilen l.instLen ∧ NumCode alen l.addrLen ∧ CksCode hc l.checksum cks := by
  obtain ⟨dataLen, instLen, addrLen, checksum⟩ := l
  unfold sectionFields
  constructor
  · intro h
    obtain ⟨a, s1, h1, h⟩ := Parsed.bind_eq_ok.1 h
    obtain ⟨b, s2, h2, h⟩ := Parsed.bind_eq_ok.1 h
    obtain ⟨c, s3, h3, h⟩ := Parsed.bind_eq_ok.1 h
    obtain ⟨d, s4, h4, h⟩ := Parsed.bind_eq_ok.1 h
    simp only [Parsed.ok.injEq, SectionLengths.mk.injEq] at h
    obtain ⟨⟨rfl, rfl, rfl, rfl⟩, rfl⟩ := h
    obtain ⟨b1, rfl, n1⟩ := parseSize_iff.1 h1
    obtain ⟨b2, rfl, n2⟩ := parseSize_iff.1 h2
    obtain ⟨b3, rfl, n3⟩ := parseSize_iff.1 h3
    cases hc with
    | false =>
      simp only [Bool.false_eq_true, if_false, Parsed.ok.injEq] at h4
      obtain ⟨rfl, rfl⟩ := h4
      exact ⟨b1, b2, b3, [], by simp, n1, n2, n3, by simp [CksCode]⟩
    | true =>
      simp only [if_true] at h4
      obtain ⟨e, s5, h5, h6⟩ := Parsed.bind_eq_ok.1 h4
      simp only [Parsed.ok.injEq] at h6
      obtain ⟨rfl, rfl⟩ := h6
      obtain ⟨b4, rfl, n4⟩ := (parseUInt32_ok_iff _ _ _).1 h5
      exact ⟨b1, b2, b3, b4, by simp, n1, n2, n3, by simp [CksCode]; exact n4⟩
  · rintro ⟨b1, b2, b3, b4, rfl, n1, n2, n3, n4⟩
    simp only [List.append_assoc] at *
    rw [parseSize_iff.2 ⟨b1, rfl, n1⟩, Parsed.bind_ok, parseSize_iff.2 ⟨b2, rfl, n2⟩, Parsed.bind_ok,
      parseSize_iff.2 ⟨b3, rfl, n3⟩, Parsed.bind_ok]
    cases hc with
    | false =>
      simp only [CksCode, Bool.false_eq_true, if_false] at n4
      obtain ⟨rfl, rfl⟩ := n4
      rfl
    | true =>
      simp only [CksCode, if_true] at n4
      obtain ⟨v, rfl, n4⟩ := n4
      rw [if_pos rfl, (parseUInt32_ok_iff _ _ _).2 ⟨b4, rfl, n4⟩]
      rfl

/-- A window header: its fields and its bytes. -/
def HeaderCode (L : Level) (f : (UInt8 × Nat × Nat) × Nat × SectionLengths) (pre : Bytes) : Prop :=
  ∃ (seg dl tlen : Bytes) (di : UInt8) (dlen ilen alen cks : Bytes),
    pre = [f.1.1] ++ seg ++ dl ++ (tlen ++ [di] ++ dlen ++ ilen ++ alen ++ cks) ∧
    SegCode L.allowTarget L.dict.length L.decoded.length f.1.1 seg f.1.2.1 f.1.2.2 ∧
    NumCode dl ((tlen ++ [di] ++ dlen ++ ilen ++ alen ++ cks).length +
      (f.2.2.dataLen + f.2.2.instLen + f.2.2.addrLen)) ∧
    NumCode tlen f.2.1 ∧ L.wouldExceed f.2.1 = false ∧ di &&& 7 = 0 ∧
    NumCode dlen f.2.2.dataLen ∧ NumCode ilen f.2.2.instLen ∧ NumCode alen f.2.2.addrLen ∧
    CksCode (L.allowExtensions && (f.1.1 &&& 4 != 0)) f.2.2.checksum cks

theorem headerFields_iff {L : Level} {s : Bytes} {f : (UInt8 × Nat × Nat) × Nat × SectionLengths} {r : Bytes} :
    headerFields L s = .ok f r ↔ ∃ pre, s = pre ++ r ∧ HeaderCode L f pre := by
  obtain ⟨isp, tl, lens⟩ := f
  unfold headerFields deltaFields HeaderCode
  constructor
  · intro h
    obtain ⟨isp', s1, h1, h⟩ := Parsed.bind_eq_ok.1 h
    obtain ⟨dl', s2, h2, h⟩ := Parsed.bind_eq_ok.1 h
    obtain ⟨tll, s3, h3, h⟩ := Parsed.bind_eq_ok.1 h
    obtain ⟨tl', s4, h4, h3⟩ := Parsed.bind_eq_ok.1 h3
    split at h3
    · simp at h3
    rename_i hex
    obtain ⟨u, s5, h5, h3⟩ := Parsed.bind_eq_ok.1 h3
    obtain ⟨l, s6, h6, h3⟩ := Parsed.bind_eq_ok.1 h3
    rw [parseSectionLengths_eq] at h6
    obtain ⟨l', s7, h7, h6⟩ := Parsed.bind_eq_ok.1 h6
    split at h6
    · simp at h6
    rename_i hlen
    simp only [Parsed.ok.injEq, Prod.mk.injEq] at h6 h3 h
    obtain ⟨rfl, rfl⟩ := h6
    obtain ⟨rfl, rfl⟩ := h3
    simp only [Prod.mk.injEq] at h
    obtain ⟨⟨rfl, rfl, rfl⟩, rfl⟩ := h
    obtain ⟨seg, rfl, n1⟩ := parseWinIndicator_iff.1 h1
    obtain ⟨dl, rfl, n2⟩ := parseSize_iff.1 h2
    obtain ⟨tlen, rfl, n3⟩ := parseSize_iff.1 h4
    obtain ⟨di, rfl, n4⟩ := parseDeltaIndicator_iff.1 h5
    obtain ⟨b1, b2, b3, b4, rfl, n5, n6, n7, n8⟩ := sectionFields_iff.1 h7
    refine ⟨_, ?_, seg, dl, tlen, di, b1, b2, b3, b4, rfl, n1, ?_, n3, by simpa using hex, n4, n5, n6, n7, n8⟩
    · simp
    · have : dl' = (tlen ++ [di] ++ b1 ++ b2 ++ b3 ++ b4).length + (l'.dataLen + l'.instLen + l'.addrLen) := by
        simp only [ne_eq, Classical.not_not] at hlen
        rw [hlen]
        simp only [List.length_append]
        omega
      rw [← this]; exact n2
  · rintro ⟨pre, rfl, seg, dl, tlen, di, b1, b2, b3, b4, rfl, n1, n2, n3, hex, n4, n5, n6, n7, n8⟩
    simp only at n1 n2 n3 hex n5 n6 n7 n8
    have e1 : [isp.1] ++ seg ++ dl ++ (tlen ++ [di] ++ b1 ++ b2 ++ b3 ++ b4) ++ r =
        [isp.1] ++ seg ++ (dl ++ (tlen ++ ([di] ++ (b1 ++ b2 ++ b3 ++ b4 ++ r)))) := by simp
    simp only [e1]
    rw [parseWinIndicator_iff.2 ⟨seg, rfl, n1⟩, Parsed.bind_ok, parseSize_iff.2 ⟨dl, rfl, n2⟩, Parsed.bind_ok,
      parseSize_iff.2 ⟨tlen, rfl, n3⟩, Parsed.bind_ok, if_neg (by simp [hex]),
      (parseDeltaIndicator_iff (u := ())).2 ⟨di, rfl, n4⟩, Parsed.bind_ok, parseSectionLengths_eq,
      show vcdChecksum = 4 from rfl,
      sectionFields_iff.2 ⟨b1, b2, b3, b4, rfl, n5, n6, n7, n8⟩, Parsed.bind_ok, if_neg]
    · rfl
    · simp only [List.length_append, ne_eq, Classical.not_not]
      omega

/-- The source segment. -/
theorem SegCode.source {L : Level} {f : (UInt8 × Nat × Nat) × Nat × SectionLengths} {seg : Bytes}
    (h : SegCode L.allowTarget L.dict.length L.decoded.length f.1.1 seg f.1.2.1 f.1.2.2) {prev : Bytes}
    (hp : L.allowTarget = true → L.decoded = prev) :
    SourceCode L.allowTarget L.dict prev f.1.1 seg (mkHeader L f).source ∧
      (mkHeader L f).source.length = f.1.2.1 ∧ f.1.2.1 ≤ 2147483647 := by
  have b0 : ∀ b : UInt8, b &&& 3 = 0 → b &&& vcdSource = 0 ∧ b &&& vcdTarget = 0 := by
    apply forall_byte; decide +kernel
  have b1 : ∀ b : UInt8, b &&& 3 = 1 → b &&& vcdSource ≠ 0 := by
    apply forall_byte; decide +kernel
  have b2 : ∀ b : UInt8, b &&& 3 = 2 → b &&& vcdSource = 0 ∧ b &&& vcdTarget ≠ 0 := by
    apply forall_byte; decide +kernel
  unfold mkHeader
  simp only
  rcases h with ⟨h, rfl, h1, h2⟩ | ⟨h, lb, pb, rfl, h5, h6, h7⟩ | ⟨h, ha, lb, pb, rfl, h5, h6, h7⟩
  · rw [if_neg (by simp [b0 _ h]), if_neg (by simp [b0 _ h]), h1]
    exact ⟨by simpa using SourceCode.none h, by simp, by omega⟩
  · rw [if_pos (b1 _ h)]
    refine ⟨.dict h h5 h6 h7, ?_, h5.2.2⟩
    rw [List.length_take, List.length_drop]; omega
  · rw [if_neg (by simp [b2 _ h]), if_pos (b2 _ h).2]
    have := hp ha
    subst this
    refine ⟨.target h ha h5 h6 h7, ?_, h5.2.2⟩
    rw [List.length_take, List.length_drop]; omega

/-- Conversely, the fields of a source segment. -/
theorem Spec.SourceCode.seg {al : Bool} {dict prev : Bytes} {ind : UInt8} {seg src : Bytes}
    (h : SourceCode al dict prev ind seg src) {decoded : Bytes} (hp : al = true → decoded = prev) :
    ∃ len pos, SegCode al dict.length decoded.length ind seg len pos ∧
      src = ((if ind &&& vcdSource ≠ 0 then dict.drop pos
        else if ind &&& vcdTarget ≠ 0 then decoded.drop pos else []).take len) := by
  have b0 : ∀ b : UInt8, b &&& 3 = 0 → b &&& vcdSource = 0 ∧ b &&& vcdTarget = 0 := by
    apply forall_byte; decide +kernel
  have b1 : ∀ b : UInt8, b &&& 3 = 1 → b &&& vcdSource ≠ 0 := by
    apply forall_byte; decide +kernel
  have b2 : ∀ b : UInt8, b &&& 3 = 2 → b &&& vcdSource = 0 ∧ b &&& vcdTarget ≠ 0 := by
    apply forall_byte; decide +kernel
  cases h with
  | none h =>
    exact ⟨0, 0, Or.inl ⟨h, rfl, rfl, rfl⟩, by simp⟩
  | @dict lb pb len pos h h1 h2 h3 =>
    exact ⟨len, pos, Or.inr (Or.inl ⟨h, lb, pb, rfl, h1, h2, h3⟩), by rw [if_pos (b1 _ h)]⟩
  | @target lb pb len pos h ha h1 h2 h3 =>
    have := hp ha
    subst this
    exact ⟨len, pos, Or.inr (Or.inr ⟨h, ha, lb, pb, rfl, h1, h2, h3⟩), by
      rw [if_neg (by simp [b2 _ h]), if_pos (b2 _ h).2]⟩

/-- The limit on the size of the target that is in force. -/
def Level.cap (L : Level) : Nat :=
  match L.planned with
  | none => L.maxFile
  | some p => min p L.maxFile

theorem wouldExceed_iff {L : Level} {n : Nat} (h : L.total ≤ L.cap) :
    L.wouldExceed n = false ↔ n ≤ L.maxWin ∧ L.total + n ≤ L.cap := by
  unfold Level.cap at *
  simp only [Level.wouldExceed, Bool.or_eq_false_iff, decide_eq_false_iff_not, Nat.not_lt, gt_iff_lt]
  cases hp : L.planned with
  | none =>
    rw [hp] at h
    simp only at h ⊢
    rw [szSub_eq h]
    constructor
    · rintro ⟨⟨h1, _⟩, h2⟩; exact ⟨h1, by omega⟩
    · rintro ⟨h1, h2⟩; exact ⟨⟨h1, trivial⟩, by omega⟩
  | some p =>
    rw [hp] at h
    simp only [decide_eq_false_iff_not, Nat.not_lt] at h ⊢
    rw [szSub_eq (by omega), szSub_eq (by omega)]
    omega

end Vcd
