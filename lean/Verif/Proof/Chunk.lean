import Verif.Proof.Split

/-!
# `DecodeChunk`: nesting, invariant, absence of faults
-/

namespace Vcd
open Spec

/-! ### File header -/

theorem Local.eod_len {α : Type} {p : Bytes → Parsed α} (h : Local p) {s t r : Bytes} {v : α}
    (h1 : p s = .endOfData) (h2 : p (s ++ t) = .ok v r) : r.length ≤ t.length := by
  obtain ⟨pre, hp, hl⟩ := h.ok h2
  by_cases hle : r.length ≤ t.length
  · exact hle
  · exfalso
    rcases List.append_eq_append_iff.1 hp with ⟨a, ha1, ha2⟩ | ⟨a, ha1, ha2⟩
    · have := congrArg List.length ha2
      rw [List.length_append] at this
      omega
    · have := hl a
      rw [← ha1, h1] at this
      simp at this

/-- The part of the file header after the five fixed bytes. -/
def fileHeaderTail (version indicator : UInt8) (s : Bytes) : Parsed FileHeader :=
  if indicator &&& 1 ≠ 0 then .error
  else if indicator &&& 2 ≠ 0 then
    (parseInt32 s).bind fun near rest =>
    (parseInt32 rest).bind fun same rest =>
      if near > 255 then .error
      else if same > 255 then .error
      else .ok { version, caches := some (near, same) } rest
  else .ok { version, caches := none } s

theorem Local.fileHeaderTail (v i : UInt8) : Local (fileHeaderTail v i) := by
  unfold Vcd.fileHeaderTail
  refine Local.ite Local.fail (Local.ite ?_ (Local.pure _))
  exact Local.parseInt32.bind fun near => Local.parseInt32.bind fun same =>
    Local.ite Local.fail (Local.ite Local.fail (Local.pure _))

/-- Whether four bytes are an acceptable beginning. -/
def goodMagic (h1 h2 h3 h4 : UInt8) : Prop := h1 = 0xD6 ∧ h2 = 0xC3 ∧ h3 = 0xC4 ∧ (h4 = 0 ∨ h4 = 0x53)

instance (h1 h2 h3 h4 : UInt8) : Decidable (goodMagic h1 h2 h3 h4) := by unfold goodMagic; infer_instance

theorem readFileHeader_cons5 (h1 h2 h3 h4 h5 : UInt8) (s : Bytes) :
    readFileHeader (h1 :: h2 :: h3 :: h4 :: h5 :: s) =
      if goodMagic h1 h2 h3 h4 then fileHeaderTail h4 h5 s else .error := by
  by_cases hg : goodMagic h1 h2 h3 h4
  · rw [if_pos hg]
    obtain ⟨rfl, rfl, rfl, rfl | rfl⟩ := hg <;> rfl
  · rw [if_neg hg]
    have hc : checkMagic (h1 :: h2 :: h3 :: h4 :: h5 :: s) = none := by
      unfold checkMagic; dsimp only
      by_cases a4 : h4 ≠ 0x00 ∧ h4 ≠ 0x53
      · rw [if_pos a4]
      · rw [if_neg a4, if_pos]
        have a4' : h4 = 0 ∨ h4 = 0x53 := by
          by_cases hz : h4 = 0
          · exact Or.inl hz
          · exact Or.inr (Decidable.byContradiction fun h => a4 ⟨hz, h⟩)
        by_cases b3 : h3 = 0xC4
        · by_cases b2 : h2 = 0xC3
          · exact Or.inr (Or.inr fun b1 => hg ⟨b1, b2, b3, a4'⟩)
          · exact Or.inr (Or.inl b2)
        · exact Or.inl b3
    unfold readFileHeader
    rw [hc]

/-- Whether a byte is acceptable at a position of the file header. -/
def magicAt : Nat → UInt8 → Prop
  | 0, b => b = 0xD6
  | 1, b => b = 0xC3
  | 2, b => b = 0xC4
  | 3, b => b = 0 ∨ b = 0x53
  | _, _ => True

theorem readFileHeader_short {s : Bytes} (h : s.length < 5) :
    (readFileHeader s = .endOfData ∧ ∀ i b, s[i]? = some b → magicAt i b) ∨
    (readFileHeader s = .error ∧ ∃ i b, s[i]? = some b ∧ i < 4 ∧ ¬ magicAt i b) := by
  match s, h with
  | [], _ => exact Or.inl ⟨rfl, by simp⟩
  | [a], _ =>
    unfold readFileHeader checkMagic
    by_cases h1 : a = 0xD6
    · subst h1
      left
      refine ⟨rfl, ?_⟩
      intro i b
      match i with
      | 0 => rintro ⟨rfl⟩; rfl
      | i + 1 => simp
    · right
      simp only [ne_eq, h1, not_false_eq_true, if_true]
      exact ⟨trivial, 0, a, rfl, by omega, h1⟩
  | [a, b], _ =>
    unfold readFileHeader checkMagic
    by_cases h1 : a = 0xD6
    · by_cases h2 : b = 0xC3
      · subst h1 h2
        left
        refine ⟨rfl, ?_⟩
        intro i b
        match i with
        | 0 => rintro ⟨rfl⟩; rfl
        | 1 => rintro ⟨rfl⟩; rfl
        | i + 2 => simp
      · right
        simp only [ne_eq, h2, not_false_eq_true, true_or, if_true]
        exact ⟨trivial, 1, b, rfl, by omega, h2⟩
    · right
      simp only [ne_eq, h1, not_false_eq_true, or_true, if_true]
      exact ⟨trivial, 0, a, rfl, by omega, h1⟩
  | [a, b, c], _ =>
    unfold readFileHeader checkMagic
    by_cases h1 : a = 0xD6
    · by_cases h2 : b = 0xC3
      · by_cases h3 : c = 0xC4
        · subst h1 h2 h3
          left
          refine ⟨rfl, ?_⟩
          intro i b
          match i with
          | 0 => rintro ⟨rfl⟩; rfl
          | 1 => rintro ⟨rfl⟩; rfl
          | 2 => rintro ⟨rfl⟩; rfl
          | i + 3 => simp
        · right
          simp only [ne_eq, h3, not_false_eq_true, true_or, if_true]
          exact ⟨trivial, 2, c, rfl, by omega, h3⟩
      · right
        simp only [ne_eq, h2, not_false_eq_true, true_or, or_true, if_true]
        exact ⟨trivial, 1, b, rfl, by omega, h2⟩
    · right
      simp only [ne_eq, h1, not_false_eq_true, or_true, if_true]
      exact ⟨trivial, 0, a, rfl, by omega, h1⟩
  | [a, b, c, d], _ =>
    have hn : checkMagic [a, b, c, d] = none → readFileHeader [a, b, c, d] = .error := by
      intro h; unfold readFileHeader; rw [h]
    by_cases h4 : d = 0 ∨ d = 0x53
    · have h4' : ¬ (d ≠ 0x00 ∧ d ≠ 0x53) := fun h => h4.elim h.1 h.2
      by_cases h1 : a = 0xD6
      · by_cases h2 : b = 0xC3
        · by_cases h3 : c = 0xC4
          · subst h1 h2 h3
            left
            refine ⟨by rcases h4 with rfl | rfl <;> rfl, ?_⟩
            intro i b
            match i with
            | 0 => rintro ⟨rfl⟩; rfl
            | 1 => rintro ⟨rfl⟩; rfl
            | 2 => rintro ⟨rfl⟩; rfl
            | 3 => rintro ⟨rfl⟩; exact h4
            | i + 4 => simp
          · right
            exact ⟨hn (by unfold checkMagic; dsimp only; rw [if_neg h4', if_pos (Or.inl h3)]), 2, c, rfl, by omega, h3⟩
        · right
          exact ⟨hn (by unfold checkMagic; dsimp only; rw [if_neg h4', if_pos (Or.inr (Or.inl h2))]), 1, b, rfl, by omega, h2⟩
      · right
        exact ⟨hn (by unfold checkMagic; dsimp only; rw [if_neg h4', if_pos (Or.inr (Or.inr h1))]), 0, a, rfl, by omega, h1⟩
    · right
      exact ⟨hn (by unfold checkMagic; dsimp only; rw [if_pos ⟨fun h => h4 (Or.inl h), fun h => h4 (Or.inr h)⟩]),
        3, d, rfl, by omega, h4⟩
  | a :: b :: c :: d :: e :: s, h => simp only [List.length_cons] at h; omega

/-- A wrong byte in one of the first four positions makes the header unacceptable. -/
theorem readFileHeader_bad {s : Bytes} {i : Nat} {b : UInt8} (hs : s[i]? = some b) (hi : i < 4)
    (hb : ¬ magicAt i b) : readFileHeader s = .error := by
  by_cases hl : s.length < 5
  · rcases readFileHeader_short hl with ⟨_, h⟩ | ⟨h, _⟩
    · exact absurd (h i b hs) hb
    · exact h
  · match s, hl with
    | h1 :: h2 :: h3 :: h4 :: h5 :: s, _ =>
      rw [readFileHeader_cons5, if_neg]
      rintro ⟨g1, g2, g3, g4⟩
      apply hb
      match i, hi with
      | 0, _ => cases hs; exact g1
      | 1, _ => cases hs; exact g2
      | 2, _ => cases hs; exact g3
      | 3, _ => cases hs; exact g4
    | [], h' | [a], h' | [a, b], h' | [a, b, c], h' | [a, b, c, d], h' => simp at h'

theorem readFileHeader_short_error {s : Bytes} (h : s.length < 5) (he : readFileHeader s = .error)
    (t : Bytes) : readFileHeader (s ++ t) = .error := by
  rcases readFileHeader_short h with ⟨h', _⟩ | ⟨_, i, b, h1, h2, h3⟩
  · rw [he] at h'; simp at h'
  · refine readFileHeader_bad (i := i) (b := b) ?_ h2 h3
    rw [List.getElem?_append_left, h1]
    exact (List.getElem?_eq_some_iff.1 h1).1

theorem readFileHeader_ok_len {s r : Bytes} {v : FileHeader} (h : readFileHeader s = .ok v r) :
    5 ≤ s.length := by
  rcases Nat.lt_or_ge s.length 5 with hl | hl
  · rcases readFileHeader_short hl with ⟨h', _⟩ | ⟨h', _⟩ <;> rw [h'] at h <;> simp at h
  · exact hl

theorem Local.readFileHeader : Local readFileHeader where
  ok := by
    intro s v r h
    have hl5 := readFileHeader_ok_len h
    match s, hl5 with
    | h1 :: h2 :: h3 :: h4 :: h5 :: s, _ =>
      rw [readFileHeader_cons5] at h
      by_cases hg : goodMagic h1 h2 h3 h4
      · rw [if_pos hg] at h
        obtain ⟨pre, rfl, hl⟩ := (Local.fileHeaderTail h4 h5).ok h
        refine ⟨h1 :: h2 :: h3 :: h4 :: h5 :: pre, rfl, fun r' => ?_⟩
        rw [List.cons_append, List.cons_append, List.cons_append, List.cons_append, List.cons_append,
          readFileHeader_cons5, if_pos hg, hl]
      · rw [if_neg hg] at h; simp at h
    | [], h' | [a], h' | [a, b], h' | [a, b, c], h' | [a, b, c, d], h' => simp at h'
  error := by
    intro s h t
    by_cases hl : s.length < 5
    · exact readFileHeader_short_error hl h t
    · match s, hl with
      | h1 :: h2 :: h3 :: h4 :: h5 :: s, _ =>
        rw [readFileHeader_cons5] at h
        rw [List.cons_append, List.cons_append, List.cons_append, List.cons_append, List.cons_append,
          readFileHeader_cons5]
        by_cases hg : goodMagic h1 h2 h3 h4
        · rw [if_pos hg] at h ⊢
          exact (Local.fileHeaderTail h4 h5).error h t
        · rw [if_neg hg]
      | [], h' | [a], h' | [a, b], h' | [a, b, c], h' | [a, b, c, d], h' => simp at h'

end Vcd
