import Verif.Model.Decoder
import Verif.Proof.Varint

/-!
# Header parsers: what they consume, and that more input never contradicts an answer
-/

namespace Vcd
open Spec

@[simp] theorem Parsed.bind_ok {α β} (v : α) (r : Bytes) (f : α → Bytes → Parsed β) :
    (Parsed.ok v r).bind f = f v r := rfl
@[simp] theorem Parsed.bind_eod {α β} (f : α → Bytes → Parsed β) :
    (Parsed.endOfData : Parsed α).bind f = .endOfData := rfl
@[simp] theorem Parsed.bind_error {α β} (f : α → Bytes → Parsed β) :
    (Parsed.error : Parsed α).bind f = .error := rfl

theorem Parsed.bind_eq_ok {α β} {p : Parsed α} {f : α → Bytes → Parsed β} {v r} :
    p.bind f = .ok v r ↔ ∃ w s, p = .ok w s ∧ f w s = .ok v r := by
  cases p with
  | ok a b => exact ⟨fun h => ⟨a, b, rfl, h⟩, fun ⟨_, _, h1, h2⟩ => by cases h1; exact h2⟩
  | endOfData => simp
  | error => simp

theorem Parsed.bind_eq_error {α β} {p : Parsed α} {f : α → Bytes → Parsed β} :
    p.bind f = .error ↔ p = .error ∨ ∃ w s, p = .ok w s ∧ f w s = .error := by
  cases p with
  | ok a b =>
    exact ⟨fun h => Or.inr ⟨a, b, rfl, h⟩, fun h => by
      rcases h with h | ⟨_, _, h1, h2⟩
      · cases h
      · cases h1; exact h2⟩
  | endOfData => simp
  | error => simp

theorem Parsed.bind_eq_eod {α β} {p : Parsed α} {f : α → Bytes → Parsed β} :
    p.bind f = .endOfData ↔ p = .endOfData ∨ ∃ w s, p = .ok w s ∧ f w s = .endOfData := by
  cases p with
  | ok a b =>
    exact ⟨fun h => Or.inr ⟨a, b, rfl, h⟩, fun h => by
      rcases h with h | ⟨_, _, h1, h2⟩
      · cases h
      · cases h1; exact h2⟩
  | endOfData => simp
  | error => simp

/-- The parser's successful answers are determined by the bytes it consumes, and its errors persist
when more input is available. -/
structure Local {α : Type} (p : Bytes → Parsed α) : Prop where
  ok : ∀ {s v r}, p s = .ok v r → ∃ pre, s = pre ++ r ∧ ∀ r', p (pre ++ r') = .ok v r'
  error : ∀ {s}, p s = .error → ∀ t, p (s ++ t) = .error

/-- A weaker notion: answers persist when more input is available. -/
structure Stable {α : Type} (p : Bytes → Parsed α) : Prop where
  ok : ∀ {s v r}, p s = .ok v r → (∃ pre, s = pre ++ r) ∧ ∀ t, p (s ++ t) = .ok v (r ++ t)
  error : ∀ {s}, p s = .error → ∀ t, p (s ++ t) = .error

theorem Local.stable {α} {p : Bytes → Parsed α} (h : Local p) : Stable p where
  ok := by
    intro s v r hs
    obtain ⟨pre, rfl, h2⟩ := h.ok hs
    exact ⟨⟨pre, rfl⟩, fun t => by rw [List.append_assoc]; exact h2 _⟩
  error := h.error

theorem Local.bind {α β} {p : Bytes → Parsed α} {f : α → Bytes → Parsed β}
    (hp : Local p) (hf : ∀ v, Local (f v)) : Local (fun s => (p s).bind f) where
  ok := by
    intro s v r h
    obtain ⟨w, s', h1, h2⟩ := Parsed.bind_eq_ok.1 h
    obtain ⟨pre, rfl, h3⟩ := hp.ok h1
    obtain ⟨pre', rfl, h4⟩ := (hf w).ok h2
    refine ⟨pre ++ pre', by simp, fun r' => ?_⟩
    simp only [List.append_assoc, h3, Parsed.bind_ok, h4]
  error := by
    intro s h t
    rcases Parsed.bind_eq_error.1 h with h | ⟨w, s', h1, h2⟩
    · simp [hp.error h]
    · simp [(hp.stable.ok h1).2 t, (hf w).error h2]

theorem Local.pure {α} (v : α) : Local (fun s => Parsed.ok v s) where
  ok := by
    intro s v' r h
    simp only [Parsed.ok.injEq] at h
    obtain ⟨rfl, rfl⟩ := h
    exact ⟨[], by simp, fun r' => by simp⟩
  error := by intro s h; simp at h

theorem Local.fail {α} : Local (fun _ => (Parsed.error : Parsed α)) where
  ok := by intro s v' r h; simp at h
  error := by intro s _ _; rfl

theorem Local.ite {α} {c : Prop} [Decidable c] {p q : Bytes → Parsed α} (hp : Local p)
    (hq : Local q) : Local (fun s => if c then p s else q s) := by
  by_cases h : c <;> simp [h, hp, hq]

theorem Local.parseByte : Local parseByte where
  ok := by
    intro s v r h
    cases s with
    | nil => simp [Vcd.parseByte] at h
    | cons b s =>
      simp only [Vcd.parseByte, Parsed.ok.injEq] at h
      obtain ⟨rfl, rfl⟩ := h
      exact ⟨[b], rfl, fun r' => rfl⟩
  error := by intro s h; cases s <;> simp [Vcd.parseByte] at h

/-- What a parser of integers consumes is a variable-length integer. -/
theorem parseInt32_ok_iff (s : Bytes) (v : Nat) (r : Bytes) :
    parseInt32 s = .ok v r ↔
      ∃ bs, s = bs ++ r ∧ IsVarint bs ∧ varintValue bs = v ∧ v ≤ 2147483647 := by
  have := parseVarint_ok_iff maxVal32 (by decide) s v r
  refine Iff.trans ?_ this
  rw [parseInt32, parseVarint32]
  cases h : parseVarint maxVal32 s <;> simp

theorem parseUInt32_ok_iff (s : Bytes) (v : Nat) (r : Bytes) :
    parseUInt32 s = .ok v r ↔
      ∃ bs, s = bs ++ r ∧ IsVarint bs ∧ varintValue bs = v ∧ v ≤ 0xFFFFFFFF := by
  have := parseVarint_ok_iff maxVal64 (by decide) s v r
  rw [parseUInt32, parseVarint64]
  constructor
  · intro h
    cases h' : parseVarint maxVal64 s with
    | ok v' r' =>
      rw [h'] at h
      by_cases hv : v' > 0xFFFFFFFF
      · simp [hv] at h
      · simp only [hv, if_false, Parsed.ok.injEq] at h
        obtain ⟨rfl, rfl⟩ := h
        obtain ⟨bs, h1, h2, h3, h4⟩ := this.1 h'
        exact ⟨bs, h1, h2, h3, by omega⟩
    | endOfData => simp [h'] at h
    | error => simp [h'] at h
  · rintro ⟨bs, h1, h2, h3, h4⟩
    rw [this.2 ⟨bs, h1, h2, h3, by unfold maxVal64; omega⟩]
    simp only
    rw [if_neg (by omega)]

theorem Local.parseInt32 : Local parseInt32 where
  ok := by
    intro s v r h
    obtain ⟨bs, h1, h2, h3, h4⟩ := (parseInt32_ok_iff s v r).1 h
    exact ⟨bs, h1, fun r' => (parseInt32_ok_iff _ _ _).2 ⟨bs, rfl, h2, h3, h4⟩⟩
  error := by
    intro s h t
    have : parseVarint maxVal32 s = .error := by
      rw [Vcd.parseInt32, parseVarint32] at h
      cases h' : parseVarint maxVal32 s <;> simp [h'] at h ⊢
    rw [Vcd.parseInt32, parseVarint32, parseVarint_error_append this]

theorem Local.parseSize : Local parseSize := Local.parseInt32

theorem Local.parseUInt32 : Local parseUInt32 where
  ok := by
    intro s v r h
    obtain ⟨bs, h1, h2, h3, h4⟩ := (parseUInt32_ok_iff s v r).1 h
    exact ⟨bs, h1, fun r' => (parseUInt32_ok_iff _ _ _).2 ⟨bs, rfl, h2, h3, h4⟩⟩
  error := by
    intro s h t
    rw [Vcd.parseUInt32, parseVarint64] at h ⊢
    cases h' : parseVarint maxVal64 s with
    | ok v' r' =>
      rw [h'] at h
      simp only [parseVarint_ok_append h']
      by_cases hv : v' > 0xFFFFFFFF
      · rw [if_pos hv]
      · simp [hv] at h
    | endOfData => simp [h'] at h
    | error => rw [parseVarint_error_append h']

theorem Local.parseSourceSegment (n : Nat) : Local (parseSourceSegment n) := by
  unfold Vcd.parseSourceSegment
  refine Local.parseSize.bind fun len => ?_
  refine Local.ite Local.fail ?_
  refine Local.parseSize.bind fun pos => ?_
  exact Local.ite Local.fail (Local.ite Local.fail (Local.pure _))

theorem Local.parseWinIndicator (a b : Nat) (c : Bool) : Local (parseWinIndicator a b c) := by
  unfold Vcd.parseWinIndicator
  refine Local.parseByte.bind fun ind => ?_
  refine Local.ite ((Local.parseSourceSegment a).bind fun _ => Local.pure _) ?_
  refine Local.ite (Local.ite Local.fail
    ((Local.parseSourceSegment b).bind fun _ => Local.pure _)) ?_
  exact Local.ite Local.fail (Local.pure _)

theorem Local.parseDeltaIndicator : Local parseDeltaIndicator := by
  unfold Vcd.parseDeltaIndicator
  exact Local.parseByte.bind fun b => Local.ite Local.fail (Local.pure _)

/-- The part of `parseSectionLengths` before the comparison of lengths. -/
def sectionFields (hasChecksum : Bool) (s : Bytes) : Parsed SectionLengths :=
  (parseSize s).bind fun dataLen s =>
  (parseSize s).bind fun instLen s =>
  (parseSize s).bind fun addrLen s =>
  (if hasChecksum then (parseUInt32 s).bind fun c s => .ok (some c) s else .ok none s).bind
    fun checksum s => .ok { dataLen, instLen, addrLen, checksum } s

theorem Local.sectionFields (c : Bool) : Local (sectionFields c) := by
  unfold Vcd.sectionFields
  refine Local.parseSize.bind fun _ => Local.parseSize.bind fun _ => Local.parseSize.bind fun _ => ?_
  refine Local.bind ?_ fun _ => Local.pure _
  exact Local.ite (Local.parseUInt32.bind fun _ => Local.pure _) (Local.pure _)

theorem parseSectionLengths_eq (hc : Bool) (deltaLen : Nat) (deltaStart s : Bytes) :
    parseSectionLengths hc deltaLen deltaStart s = (sectionFields hc s).bind fun l r =>
      if deltaLen ≠ deltaStart.length - r.length + l.dataLen + l.instLen + l.addrLen then .error
      else .ok l r := by
  unfold Vcd.parseSectionLengths Vcd.sectionFields
  cases parseSize s with
  | endOfData => rfl
  | error => rfl
  | ok a s =>
    cases h1 : parseSize s with
    | endOfData => simp [h1]
    | error => simp [h1]
    | ok b s =>
      cases h2 : parseSize s with
      | endOfData => simp [h1, h2]
      | error => simp [h1, h2]
      | ok c s =>
        simp only [h1, h2, Parsed.bind_ok]
        cases hc with
        | false => rfl
        | true => simp only [if_true]; cases parseUInt32 s <;> rfl

/-- The fields of a window header after "length of the delta encoding": target window size and
section lengths. -/
def deltaFields (L : Level) (hasChecksum : Bool) (deltaLen : Nat) (deltaStart : Bytes) :
    Parsed (Nat × SectionLengths) :=
  (parseSize deltaStart).bind fun targetLen s =>
    if L.wouldExceed targetLen then .error
    else (parseDeltaIndicator s).bind fun _ s =>
      (parseSectionLengths hasChecksum deltaLen deltaStart s).bind fun lens s =>
        .ok (targetLen, lens) s

theorem Local.deltaFields (L : Level) (c : Bool) (n : Nat) : Local (deltaFields L c n) := by
  constructor
  · intro s v r h
    unfold Vcd.deltaFields at h
    obtain ⟨tl, s1, h1, h2⟩ := Parsed.bind_eq_ok.1 h
    by_cases he : L.wouldExceed tl = true
    · simp [he] at h2
    rw [if_neg he] at h2
    obtain ⟨u, s2, h3, h4⟩ := Parsed.bind_eq_ok.1 h2
    rw [parseSectionLengths_eq] at h4
    obtain ⟨l, s3, h5, h6⟩ := Parsed.bind_eq_ok.1 h4
    obtain ⟨l', s4, h7, h8⟩ := Parsed.bind_eq_ok.1 h5
    obtain ⟨p1, rfl, g1⟩ := Local.parseSize.ok h1
    obtain ⟨p2, rfl, g2⟩ := Local.parseDeltaIndicator.ok h3
    obtain ⟨p3, rfl, g3⟩ := (Local.sectionFields c).ok h7
    refine ⟨p1 ++ p2 ++ p3, ?_, fun r' => ?_⟩
    · split at h8
      · simp at h8
      · simp only [Parsed.ok.injEq] at h8 h6
        simp [h8, h6]
    · unfold Vcd.deltaFields
      simp only [List.append_assoc, g1, Parsed.bind_ok, if_neg he, g2, parseSectionLengths_eq, g3]
      split at h8
      · simp at h8
      · rename_i hne
        simp only [Parsed.ok.injEq] at h8 h6
        rw [if_neg]
        · simp [← h6.1, h8]
        · simp only [List.length_append, ne_eq, Classical.not_not] at hne ⊢; omega
  · intro s h t
    unfold Vcd.deltaFields at h ⊢
    rcases Parsed.bind_eq_error.1 h with h | ⟨tl, s1, h1, h2⟩
    · simp [Local.parseSize.error h]
    simp only [(Local.parseSize.stable.ok h1).2, Parsed.bind_ok]
    by_cases he : L.wouldExceed tl = true
    · simp [he]
    rw [if_neg he] at h2 ⊢
    rcases Parsed.bind_eq_error.1 h2 with h2 | ⟨u, s2, h3, h4⟩
    · simp [Local.parseDeltaIndicator.error h2]
    simp only [(Local.parseDeltaIndicator.stable.ok h3).2, Parsed.bind_ok]
    rw [parseSectionLengths_eq] at h4 ⊢
    rcases Parsed.bind_eq_error.1 h4 with h5 | ⟨l, s3, h5, h6⟩
    · rcases Parsed.bind_eq_error.1 h5 with h5 | ⟨l', s4, h7, h8⟩
      · simp [(Local.sectionFields c).error h5]
      · simp only [((Local.sectionFields c).stable.ok h7).2, Parsed.bind_ok]
        rw [if_pos]
        · rfl
        · split at h8
          · rename_i hne
            simp only [List.length_append, ne_eq] at hne ⊢; omega
          · simp at h8
    · simp at h6

/-- The fields of a window header: indicator, source length and position, target length, section
lengths. -/
def headerFields (L : Level) (s : Bytes) :
    Parsed ((UInt8 × Nat × Nat) × Nat × SectionLengths) :=
  (parseWinIndicator L.dict.length L.decoded.length L.allowTarget s).bind fun isp s =>
    (parseSize s).bind fun deltaLen s =>
      (deltaFields L (L.allowExtensions && (isp.1 &&& vcdChecksum != 0)) deltaLen s).bind
        fun tl s => .ok (isp, tl) s

theorem Local.headerFields (L : Level) : Local (headerFields L) := by
  unfold Vcd.headerFields
  exact (Local.parseWinIndicator _ _ _).bind fun _ => Local.parseSize.bind fun _ =>
    (Local.deltaFields _ _ _).bind fun _ => Local.pure _

/-- Whether the sections are interleaved. -/
def headerInterleaved (L : Level) (lens : SectionLengths) : Bool :=
  L.allowExtensions && lens.dataLen == 0 && lens.addrLen == 0

/-- The header assembled from its fields. -/
def mkHeader (L : Level) (f : (UInt8 × Nat × Nat) × Nat × SectionLengths) : WinHeader :=
  let source :=
    if f.1.1 &&& vcdSource ≠ 0 then L.dict.drop f.1.2.2
    else if f.1.1 &&& vcdTarget ≠ 0 then L.decoded.drop f.1.2.2
    else []
  { srcLen := f.1.2.1, source := source.take f.1.2.1, targetLen := f.2.1,
    checksum := f.2.2.checksum, interleaved := headerInterleaved L f.2.2,
    dataLen := f.2.2.dataLen, instLen := f.2.2.instLen, addrLen := f.2.2.addrLen }

theorem readHeader_eq (L : Level) (s : Bytes) :
    readHeader L s = (headerFields L s).bind fun f r =>
      if !headerInterleaved L f.2.2 && r.length < f.2.2.dataLen + f.2.2.instLen + f.2.2.addrLen then
        .endOfData
      else .ok (mkHeader L f) r := by
  unfold Vcd.readHeader Vcd.headerFields Vcd.deltaFields
  cases parseWinIndicator L.dict.length L.decoded.length L.allowTarget s with
  | endOfData => rfl
  | error => rfl
  | ok isp s =>
    simp only [Parsed.bind_ok]
    cases parseSize s with
    | endOfData => rfl
    | error => rfl
    | ok dl s =>
      simp only [Parsed.bind_ok]
      cases h : parseSize s with
      | endOfData => rfl
      | error => rfl
      | ok tl s' =>
        simp only [Parsed.bind_ok]
        by_cases he : L.wouldExceed tl = true
        · simp [he]
        · simp only [he, Bool.false_eq_true, if_false]
          cases parseDeltaIndicator s' with
          | endOfData => rfl
          | error => rfl
          | ok u s'' =>
            simp only [Parsed.bind_ok]
            generalize parseSectionLengths _ _ _ _ = q
            cases q <;> rfl

theorem Stable.readHeader (L : Level) : Stable (readHeader L) where
  ok := by
    intro s v r h
    rw [readHeader_eq] at h
    obtain ⟨f, s', h1, h2⟩ := Parsed.bind_eq_ok.1 h
    obtain ⟨pre, hp, _⟩ := (Local.headerFields L).ok h1
    split at h2
    · simp at h2
    · rename_i hc
      simp only [Parsed.ok.injEq] at h2
      obtain ⟨rfl, rfl⟩ := h2
      refine ⟨⟨pre, hp⟩, fun t => ?_⟩
      rw [readHeader_eq, ((Local.headerFields L).stable.ok h1).2, Parsed.bind_ok, if_neg]
      simp only [Bool.and_eq_true, Bool.not_eq_true', decide_eq_true_eq, List.length_append,
        not_and] at hc ⊢
      intro h; have := hc h; omega
  error := by
    intro s h t
    rw [readHeader_eq] at h ⊢
    rcases Parsed.bind_eq_error.1 h with h | ⟨f, s', h1, h2⟩
    · simp [(Local.headerFields L).error h]
    · split at h2 <;> simp at h2

/-- What a successful `readHeader` says about its result. -/
theorem readHeader_ok {L : Level} {s r : Bytes} {h : WinHeader} (hok : readHeader L s = .ok h r) :
    (∃ pre, s = pre ++ r ∧ 6 ≤ pre.length) ∧
    h.source.length = h.srcLen ∧ h.srcLen ≤ 2147483647 ∧ h.targetLen ≤ 2147483647 ∧
    h.instLen ≤ 2147483647 ∧ L.wouldExceed h.targetLen = false ∧
    (h.interleaved = true → L.allowExtensions = true ∧ h.dataLen = 0 ∧ h.addrLen = 0) ∧
    (h.interleaved = false → h.dataLen + h.instLen + h.addrLen ≤ r.length) ∧
    (∀ c, h.checksum = some c → L.allowExtensions = true) := by
  rw [readHeader_eq] at hok
  obtain ⟨f, s', h1, h2⟩ := Parsed.bind_eq_ok.1 hok
  unfold Vcd.headerFields at h1
  obtain ⟨isp, s1, g1, h1⟩ := Parsed.bind_eq_ok.1 h1
  obtain ⟨dl, s2, g2, h1⟩ := Parsed.bind_eq_ok.1 h1
  obtain ⟨tl, s3, g3, h1⟩ := Parsed.bind_eq_ok.1 h1
  unfold Vcd.deltaFields at g3
  obtain ⟨tlen, s4, g4, g3⟩ := Parsed.bind_eq_ok.1 g3
  by_cases he : L.wouldExceed tlen = true
  · simp [he] at g3
  rw [if_neg he] at g3
  obtain ⟨u, s5, g5, g3⟩ := Parsed.bind_eq_ok.1 g3
  obtain ⟨lens, s6, g6, g3⟩ := Parsed.bind_eq_ok.1 g3
  rw [parseSectionLengths_eq] at g6
  obtain ⟨lens', s7, g7, g6⟩ := Parsed.bind_eq_ok.1 g6
  split at g6
  · simp at g6
  simp only [Parsed.ok.injEq] at g6 g3 h1
  obtain ⟨rfl, rfl⟩ := g6
  obtain ⟨rfl, rfl⟩ := g3
  obtain ⟨rfl, rfl⟩ := h1
  split at h2
  · simp at h2
  rename_i hav
  simp only [Parsed.ok.injEq] at h2
  obtain ⟨rfl, rfl⟩ := h2
  -- the source segment
  have hind : (∃ pre, s = pre ++ s1 ∧ 1 ≤ pre.length) ∧
      (mkHeader L (isp, tlen, lens')).source.length = isp.2.1 ∧ isp.2.1 ≤ 2147483647 := by
    unfold Vcd.parseWinIndicator at g1
    obtain ⟨ind, s', k1, k2⟩ := Parsed.bind_eq_ok.1 g1
    have hs' : s = [ind] ++ s' := by
      cases s with
      | nil => simp [Vcd.parseByte] at k1
      | cons b s => simp only [Vcd.parseByte, Parsed.ok.injEq] at k1; simp [k1]
    have seg : ∀ n lp s'', parseSourceSegment n s' = .ok lp s'' →
        (∃ pre, s' = pre ++ s'') ∧ lp.2 + lp.1 ≤ n ∧ lp.1 ≤ 2147483647 := by
      intro n lp s'' h
      obtain ⟨pre, hp, _⟩ := (Local.parseSourceSegment n).ok h
      refine ⟨⟨pre, hp⟩, ?_⟩
      unfold Vcd.parseSourceSegment at h
      obtain ⟨len, s1, m1, m2⟩ := Parsed.bind_eq_ok.1 h
      split at m2
      · simp at m2
      obtain ⟨pos, s2, m3, m4⟩ := Parsed.bind_eq_ok.1 m2
      split at m4
      · simp at m4
      split at m4
      · simp at m4
      simp only [Parsed.ok.injEq] at m4
      obtain ⟨rfl, rfl⟩ := m4
      have := (parseInt32_ok_iff _ _ _).1 m1
      obtain ⟨_, _, _, _, _⟩ := this
      exact ⟨by simpa using ‹¬ pos + len > n›, by assumption⟩
    simp only at k2
    by_cases c1 : ind &&& (vcdSource ||| vcdTarget) = vcdSource
    · rw [if_pos c1] at k2
      obtain ⟨lp, s'', k3, k4⟩ := Parsed.bind_eq_ok.1 k2
      simp only [Parsed.ok.injEq] at k4
      obtain ⟨rfl, rfl⟩ := k4
      obtain ⟨⟨pre, hp⟩, hb, hb'⟩ := seg _ _ _ k3
      have hne : ind &&& vcdSource ≠ 0 := by
        intro h0
        have : ∀ b : UInt8, b &&& (vcdSource ||| vcdTarget) = vcdSource → b &&& vcdSource ≠ 0 := by
          apply forall_byte; decide +kernel
        exact this ind c1 h0
      refine ⟨⟨[ind] ++ pre, by rw [hs', hp]; simp, by simp⟩, ?_, hb'⟩
      simp only [mkHeader, hne, ne_eq, not_false_eq_true, if_true, List.length_take,
        List.length_drop]
      omega
    · rw [if_neg c1] at k2
      by_cases c2 : ind &&& (vcdSource ||| vcdTarget) = vcdTarget
      · rw [if_pos c2] at k2
        by_cases ca : (!L.allowTarget) = true
        · simp [ca] at k2
        rw [if_neg ca] at k2
        obtain ⟨lp, s'', k3, k4⟩ := Parsed.bind_eq_ok.1 k2
        simp only [Parsed.ok.injEq] at k4
        obtain ⟨rfl, rfl⟩ := k4
        obtain ⟨⟨pre, hp⟩, hb, hb'⟩ := seg _ _ _ k3
        have h12 : ∀ b : UInt8, b &&& (vcdSource ||| vcdTarget) = vcdTarget →
            b &&& vcdSource = 0 ∧ b &&& vcdTarget ≠ 0 := by
          apply forall_byte; decide +kernel
        obtain ⟨e1, e2⟩ := h12 ind c2
        refine ⟨⟨[ind] ++ pre, by rw [hs', hp]; simp, by simp⟩, ?_, hb'⟩
        simp only [mkHeader, e1, e2, ne_eq, not_true_eq_false, not_false_eq_true, if_true, if_false,
          List.length_take, List.length_drop]
        omega
      · rw [if_neg c2] at k2
        split at k2
        · simp at k2
        simp only [Parsed.ok.injEq] at k2
        obtain ⟨rfl, rfl⟩ := k2
        exact ⟨⟨[ind], by rw [hs'], by simp⟩, by simp [mkHeader], by simp⟩
  have hvar : ∀ {a : Bytes} {v b}, parseSize a = .ok v b →
      v ≤ 2147483647 ∧ ∃ pre, a = pre ++ b ∧ 1 ≤ pre.length := by
    intro a v b h
    obtain ⟨bs, k1, k2, k3, k4⟩ := (parseInt32_ok_iff _ _ _).1 h
    obtain ⟨fr, la, rfl, _, _⟩ := k2
    exact ⟨k4, _, k1, by simp⟩
  obtain ⟨⟨p1, q1, q1'⟩, hsl, hsl'⟩ := hind
  obtain ⟨_, p2, q2, q2'⟩ := hvar g2
  obtain ⟨b4, p4, q4, q4'⟩ := hvar g4
  have hp5 : ∃ pre, s4 = pre ++ s5 ∧ 1 ≤ pre.length := by
    unfold Vcd.parseDeltaIndicator at g5
    obtain ⟨b, s', k1, k2⟩ := Parsed.bind_eq_ok.1 g5
    split at k2
    · simp at k2
    simp only [Parsed.ok.injEq] at k2
    cases s4 with
    | nil => simp [Vcd.parseByte] at k1
    | cons c s4 =>
      simp only [Vcd.parseByte, Parsed.ok.injEq] at k1
      exact ⟨[c], by simp [k1, k2], by simp⟩
  obtain ⟨p5, q5, q5'⟩ := hp5
  have h7 : ∃ pre, s5 = pre ++ s7 ∧ 2 ≤ pre.length := by
    obtain ⟨pre, hp, _⟩ := (Local.sectionFields _).ok g7
    refine ⟨pre, hp, ?_⟩
    unfold Vcd.sectionFields at g7
    obtain ⟨a, t1, k1, g7⟩ := Parsed.bind_eq_ok.1 g7
    obtain ⟨b, t2, k2, g7⟩ := Parsed.bind_eq_ok.1 g7
    obtain ⟨c, t3, k3, g7⟩ := Parsed.bind_eq_ok.1 g7
    obtain ⟨d, t4, k4, g7⟩ := Parsed.bind_eq_ok.1 g7
    simp only [Parsed.ok.injEq] at g7
    obtain ⟨_, rfl⟩ := g7
    obtain ⟨_, u1, v1, v1'⟩ := hvar k1
    obtain ⟨_, u2, v2, v2'⟩ := hvar k2
    obtain ⟨_, u3, v3, v3'⟩ := hvar k3
    have : t4.length ≤ t3.length := by
      split at k4
      · obtain ⟨e, t5, k5, k6⟩ := Parsed.bind_eq_ok.1 k4
        simp only [Parsed.ok.injEq] at k6
        obtain ⟨_, rfl⟩ := k6
        obtain ⟨pre, hp, _⟩ := Local.parseUInt32.ok k5
        rw [hp]; simp
      · simp only [Parsed.ok.injEq] at k4
        rw [k4.2]; exact Nat.le_refl _
    have e1 := congrArg List.length v1
    have e2 := congrArg List.length v2
    have e3 := congrArg List.length v3
    have e4 := congrArg List.length hp
    simp only [List.length_append] at e1 e2 e3 e4
    omega
  obtain ⟨p7, q7, q7'⟩ := h7
  have hl : lens'.instLen ≤ 2147483647 ∧
      (∀ c, lens'.checksum = some c → (L.allowExtensions && (isp.1 &&& vcdChecksum != 0)) = true) := by
    unfold Vcd.sectionFields at g7
    obtain ⟨a, t1, k1, g7⟩ := Parsed.bind_eq_ok.1 g7
    obtain ⟨b, t2, k2, g7⟩ := Parsed.bind_eq_ok.1 g7
    obtain ⟨c, t3, k3, g7⟩ := Parsed.bind_eq_ok.1 g7
    obtain ⟨d, t4, k4, g7⟩ := Parsed.bind_eq_ok.1 g7
    simp only [Parsed.ok.injEq] at g7
    obtain ⟨rfl, rfl⟩ := g7
    refine ⟨(hvar k2).1, fun c hc => ?_⟩
    simp only at hc
    subst hc
    split at k4
    · assumption
    · simp at k4
  refine ⟨⟨p1 ++ (p2 ++ (p4 ++ (p5 ++ p7))), ?_, ?_⟩, hsl, hsl', b4, hl.1, by simpa [mkHeader] using he, ?_, ?_, ?_⟩
  · rw [q1, q2, q4, q5, q7]; simp
  · simp only [List.length_append]; omega
  · intro hi
    simp only [mkHeader, headerInterleaved, Bool.and_eq_true, beq_iff_eq] at hi ⊢
    exact ⟨hi.1.1, hi.1.2, hi.2⟩
  · intro hi
    simp only [mkHeader] at hi ⊢
    simp only [hi, Bool.not_false, Bool.true_and, decide_eq_true_eq] at hav
    omega
  · intro c hc
    have := hl.2 c hc
    simp only [Bool.and_eq_true] at this
    exact this.1

end Vcd
