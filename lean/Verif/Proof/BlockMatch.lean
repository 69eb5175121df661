import Verif.Proof.BlockHash

/-! # Lemmas about finding matches in a block hash -/

namespace Vcd
namespace BlockHash

theorem matchingBytesToLeft_spec (source target : Bytes) : ∀ max s t,
    max ≤ s → max ≤ t → s ≤ source.length → t ≤ target.length →
    ∃ l, matchingBytesToLeft source target s t max = .ok l ∧ l ≤ max ∧
      (∀ i, i < l → source[s - 1 - i]? = target[t - 1 - i]?) ∧
      (l < max → source[s - 1 - l]? ≠ target[t - 1 - l]?) := by
  intro max
  induction max with
  | zero => intro s t _ _ _ _; exact ⟨0, by cases s <;> cases t <;> rfl, Nat.le_refl _, by omega, by omega⟩
  | succ max ih =>
    intro s t hs ht hsl htl
    obtain ⟨s, rfl⟩ : ∃ s', s = s' + 1 := ⟨s - 1, by omega⟩
    obtain ⟨t, rfl⟩ : ∃ t', t = t' + 1 := ⟨t - 1, by omega⟩
    rw [matchingBytesToLeft, List.getElem?_eq_getElem (by omega), List.getElem?_eq_getElem (by omega)]
    simp only
    by_cases he : source[s] = target[t]
    · rw [if_neg (by simpa using he)]
      obtain ⟨l, h1, h2, h3, h4⟩ := ih s t (by omega) (by omega) (by omega) (by omega)
      rw [h1]
      refine ⟨l + 1, rfl, by omega, ?_, ?_⟩
      · intro i hi
        cases i with
        | zero =>
          simp only [Nat.add_sub_cancel, Nat.sub_zero]
          rw [List.getElem?_eq_getElem (by omega), List.getElem?_eq_getElem (by omega), he]
        | succ i =>
          have := h3 i (by omega)
          rwa [show s + 1 - 1 - (i + 1) = s - 1 - i by omega, show t + 1 - 1 - (i + 1) = t - 1 - i by omega]
      · intro hl
        have := h4 (by omega)
        rwa [show s + 1 - 1 - (l + 1) = s - 1 - l by omega, show t + 1 - 1 - (l + 1) = t - 1 - l by omega]
    · rw [if_pos (by simpa using he)]
      refine ⟨0, rfl, by omega, by omega, fun _ => ?_⟩
      simp only [Nat.add_sub_cancel, Nat.sub_zero]
      rw [List.getElem?_eq_getElem (by omega), List.getElem?_eq_getElem (by omega)]
      simpa using he

theorem matchingBytesToRight_spec (source target : Bytes) : ∀ max s t,
    s + max ≤ source.length → t + max ≤ target.length →
    ∃ r, matchingBytesToRight source target s t max = .ok r ∧ r ≤ max ∧
      (∀ i, i < r → source[s + i]? = target[t + i]?) ∧
      (r < max → source[s + r]? ≠ target[t + r]?) := by
  intro max
  induction max with
  | zero => intro s t _ _; exact ⟨0, rfl, Nat.le_refl _, by omega, by omega⟩
  | succ max ih =>
    intro s t hs ht
    rw [matchingBytesToRight, List.getElem?_eq_getElem (by omega), List.getElem?_eq_getElem (by omega)]
    simp only
    by_cases he : source[s] = target[t]
    · rw [if_pos he]
      obtain ⟨r, h1, h2, h3, h4⟩ := ih (s + 1) (t + 1) (by omega) (by omega)
      rw [h1]
      refine ⟨r + 1, rfl, by omega, ?_, ?_⟩
      · intro i hi
        cases i with
        | zero =>
          simp only [Nat.add_zero]
          rw [List.getElem?_eq_getElem (by omega), List.getElem?_eq_getElem (by omega), he]
        | succ i =>
          have := h3 i (by omega)
          rwa [show s + (i + 1) = s + 1 + i by omega, show t + (i + 1) = t + 1 + i by omega]
      · intro hl
        have := h4 (by omega)
        rwa [show s + (r + 1) = s + 1 + r by omega, show t + (r + 1) = t + 1 + r by omega]
    · rw [if_neg he]
      refine ⟨0, rfl, by omega, by omega, fun _ => ?_⟩
      simp only [Nat.add_zero]
      rw [List.getElem?_eq_getElem (by omega), List.getElem?_eq_getElem (by omega)]
      simpa using he

theorem slice_eq {a b : Bytes} {s t n : Nat} :
    (a.drop s).take n = (b.drop t).take n ↔ ∀ i < n, a[s + i]? = b[t + i]? := by
  constructor
  · intro h i hi
    have := congrArg (·[i]?) h
    simpa [List.getElem?_take, hi] using this
  · intro h
    apply List.ext_getElem?
    intro i
    rw [List.getElem?_take, List.getElem?_take]
    split
    · rename_i hi; simpa using h i hi
    · rfl

/-- What the extension of a matching block looks like: block `n` at `16 * n` in the source matches the
block at `candidate`, and `s`, `t`, `size` is its extension. -/
structure Extension (source target : Bytes) (candidate n s t size : Nat) : Prop where
  isMatch : Spec.Matches source target candidate s t size
  maximal : Spec.Maximal source target s t size
  aligned : s + (candidate - t) = n * kBlockSize

theorem Extension.unique {source target : Bytes} {candidate n s t size s' t' size' : Nat}
    (h : Extension source target candidate n s t size) (h' : Extension source target candidate n s' t' size') :
    s = s' ∧ t = t' ∧ size = size' := by
  obtain ⟨⟨a1, a2, a3, a4, a5⟩, ⟨a6, a7⟩, a8⟩ := h
  obtain ⟨⟨b1, b2, b3, b4, b5⟩, ⟨b6, b7⟩, b8⟩ := h'
  rw [slice_eq] at a5 b5
  have ht : t = t' := by
    rcases Nat.lt_trichotomy t t' with h | h | h
    · exfalso
      rcases b6 with h' | h' | h'
      · omega
      · omega
      · apply h'
        have := a5 (t' - 1 - t) (by omega)
        rwa [show s + (t' - 1 - t) = s' - 1 by omega, show t + (t' - 1 - t) = t' - 1 by omega] at this
    · exact h
    · exfalso
      rcases a6 with h' | h' | h'
      · omega
      · omega
      · apply h'
        have := b5 (t - 1 - t') (by omega)
        rwa [show s' + (t - 1 - t') = s - 1 by omega, show t' + (t - 1 - t') = t - 1 by omega] at this
  subst ht
  have hs : s = s' := by omega
  subst hs
  refine ⟨rfl, rfl, ?_⟩
  rcases Nat.lt_trichotomy size size' with h | h | h
  · exfalso
    rcases a7 with h' | h' | h'
    · omega
    · omega
    · exact h' (b5 size h)
  · exact h
  · exfalso
    rcases b7 with h' | h' | h'
    · omega
    · omega
    · exact h' (a5 size' h)

theorem extendMatch_spec {bh : BlockHash} {target : Bytes} {candidate n : Nat} {best : Match} {off : Nat}
    (hoff : bh.startingOffset = off) (hsrc : bh.source.length + off ≤ int32Max) (htgt : target.length ≤ int32Max)
    (hn : n * kBlockSize + kBlockSize ≤ bh.source.length) (hc : candidate + kBlockSize ≤ target.length)
    (heq : (bh.source.drop (n * kBlockSize)).take kBlockSize = (target.drop candidate).take kBlockSize) :
    ∃ s t size, Extension bh.source target candidate n s t size ∧
      bh.extendMatch target candidate n best =
        .ok (best.replaceIfBetter size ((s + off : Nat) : Int) (t : Int)) := by
  simp only [int32Max] at *
  obtain ⟨l, hl1, hl2, hl3, hl4⟩ := matchingBytesToLeft_spec bh.source target
    (min (n * kBlockSize) candidate) (n * kBlockSize) candidate (by omega) (by omega) (by omega) (by omega)
  obtain ⟨r, hr1, hr2, hr3, hr4⟩ := matchingBytesToRight_spec bh.source target
    (min (bh.source.length - (n * kBlockSize + kBlockSize)) (target.length - (candidate + kBlockSize)))
    (n * kBlockSize + kBlockSize) (candidate + kBlockSize) (by omega) (by omega)
  rw [slice_eq] at heq
  refine ⟨n * kBlockSize - l, candidate - l, kBlockSize + l + r, ⟨⟨by omega, by omega, by omega, ?_, ?_⟩,
    ⟨?_, ?_⟩, by omega⟩, ?_⟩
  · simp only [kBlockSize] at *; omega
  · rw [slice_eq]
    intro i hi
    rcases Nat.lt_or_ge i l with h | h
    · have := hl3 (l - 1 - i) (by omega)
      rwa [show n * kBlockSize - 1 - (l - 1 - i) = n * kBlockSize - l + i by omega,
        show candidate - 1 - (l - 1 - i) = candidate - l + i by omega] at this
    · rcases Nat.lt_or_ge i (l + kBlockSize) with h2 | h2
      · have := heq (i - l) (by omega)
        rwa [show n * kBlockSize + (i - l) = n * kBlockSize - l + i by omega,
          show candidate + (i - l) = candidate - l + i by omega] at this
      · have := hr3 (i - l - kBlockSize) (by omega)
        rwa [show n * kBlockSize + kBlockSize + (i - l - kBlockSize) = n * kBlockSize - l + i by omega,
          show candidate + kBlockSize + (i - l - kBlockSize) = candidate - l + i by omega] at this
  · rcases Nat.lt_or_ge l (min (n * kBlockSize) candidate) with h | h
    · right; right
      have := hl4 h
      rwa [show n * kBlockSize - 1 - l = n * kBlockSize - l - 1 by omega,
        show candidate - 1 - l = candidate - l - 1 by omega] at this
    · omega
  · rcases Nat.lt_or_ge r (min (bh.source.length - (n * kBlockSize + kBlockSize))
      (target.length - (candidate + kBlockSize))) with h | h
    · right; right
      have := hr4 h
      rwa [show n * kBlockSize + kBlockSize + r = n * kBlockSize - l + (kBlockSize + l + r) by omega,
        show candidate + kBlockSize + r = candidate - l + (kBlockSize + l + r) by omega] at this
    · omega
  · rw [extendMatch]
    simp only [hl1, bind, Except.bind]
    rw [szSub_eq hn, szSub_eq hc, toInt32_of_lt (by omega), Int.toNat_natCast, hr1]
    simp only
    rw [hoff, if_neg (by simp only [int32Max]; omega)]
    congr 2

/-- Every match around a block is part of the extension of that block. -/
theorem extension_of_matches {source target : Bytes} {candidate n s t size : Nat}
    (h : Spec.Matches source target candidate s t size) (hal : s + (candidate - t) = n * kBlockSize) :
    ∃ s' t' size', Extension source target candidate n s' t' size' ∧ size ≤ size' := by
  obtain ⟨a1, a2, a3, a4, a5⟩ := h
  rw [slice_eq] at a5
  -- extend both ends as far as they go
  obtain ⟨l, _, hl2, hl3, hl4⟩ := matchingBytesToLeft_spec source target (min s t) s t (by omega) (by omega)
    (by omega) (by omega)
  obtain ⟨r, _, hr2, hr3, hr4⟩ := matchingBytesToRight_spec source target
    (min (source.length - (s + size)) (target.length - (t + size))) (s + size) (t + size) (by omega) (by omega)
  refine ⟨s - l, t - l, l + size + r, ⟨⟨by omega, by omega, by omega, by omega, ?_⟩, ⟨?_, ?_⟩, by omega⟩, by omega⟩
  · rw [slice_eq]
    intro i hi
    rcases Nat.lt_or_ge i l with h | h
    · have := hl3 (l - 1 - i) (by omega)
      rwa [show s - 1 - (l - 1 - i) = s - l + i by omega, show t - 1 - (l - 1 - i) = t - l + i by omega] at this
    · rcases Nat.lt_or_ge i (l + size) with h2 | h2
      · have := a5 (i - l) (by omega)
        rwa [show s + (i - l) = s - l + i by omega, show t + (i - l) = t - l + i by omega] at this
      · have := hr3 (i - l - size) (by omega)
        rwa [show s + size + (i - l - size) = s - l + i by omega,
          show t + size + (i - l - size) = t - l + i by omega] at this
  · rcases Nat.lt_or_ge l (min s t) with h | h
    · right; right
      have := hl4 h
      rwa [show s - 1 - l = s - l - 1 by omega, show t - 1 - l = t - l - 1 by omega] at this
    · omega
  · rcases Nat.lt_or_ge r (min (source.length - (s + size)) (target.length - (t + size))) with h | h
    · right; right
      have := hr4 h
      rwa [show s + size + r = s - l + (l + size + r) by omega,
        show t + size + r = t - l + (l + size + r) by omega] at this
    · omega

/-! ## The search -/

theorem chain_suffix {link : List (Option Nat)} {pre post : List Nat} {k : Nat} :
    ∀ {start : Option Nat}, Spec.Chain link start (pre ++ k :: post) → Spec.Chain link (some k) (k :: post) := by
  induction pre with
  | nil => intro start h; cases h with | step h1 h2 => exact .step h1 h2
  | cons p ps ih => intro start h; cases h with | step h1 h2 => exact ih h2

theorem first_unique {p : Nat → Prop} {pre' pre post' post : List Nat} {k' k : Nat}
    (h : pre' ++ k' :: post' = pre ++ k :: post) (h1 : ∀ j ∈ pre', ¬ p j) (h2 : p k') (h3 : ∀ j ∈ pre, ¬ p j)
    (h4 : p k) : k' = k := by
  induction pre generalizing pre' with
  | nil =>
    cases pre' with
    | nil => simp at h; exact h.1
    | cons p ps =>
      simp at h
      exact absurd (h.1 ▸ h4) (h1 p (by simp))
  | cons p ps ih =>
    cases pre' with
    | nil =>
      simp at h
      exact absurd (h.1 ▸ h2) (h3 p (by simp))
    | cons q qs =>
      simp at h
      exact ih h.2 (fun j hj => h1 j (by simp [hj])) (fun j hj => h3 j (by simp [hj]))

theorem Extension.block_eq {source target : Bytes} {candidate n s t size : Nat}
    (h : Extension source target candidate n s t size) :
    Spec.block source n = (target.drop candidate).take kBlockSize := by
  obtain ⟨⟨a1, a2, a3, a4, a5⟩, _, a8⟩ := h
  rw [slice_eq] at a5
  rw [Spec.block, show kBlockSize = 16 from rfl, slice_eq]
  intro i hi
  have := a5 (candidate - t + i) (by omega)
  rwa [show s + (candidate - t + i) = 16 * n + i by rw [← Nat.add_assoc, a8, Nat.mul_comm]; rfl,
    show t + (candidate - t + i) = candidate + i by omega] at this

theorem wordValue_inj : ∀ {a b : Bytes}, a.length = b.length → wordValue a = wordValue b → a = b
  | [], [], _, _ => rfl
  | x :: a, y :: b, hl, h => by
    simp only [wordValue] at h
    have hx := x.toNat_lt
    have hy := y.toNat_lt
    have h1 : x.toNat = y.toNat := by omega
    have h2 : wordValue a = wordValue b := by omega
    rw [UInt8.toNat_inj.1 h1, wordValue_inj (by simpa using hl) h2]

theorem compareWholeWordValues_iff : ∀ (n : Nat) {a b : Bytes}, a.length = kWordSize * n → b.length = kWordSize * n →
    (compareWholeWordValues n a b = true ↔ a = b)
  | 0, a, b, ha, hb => by
    have h1 : a = [] := List.length_eq_zero_iff.1 ha
    have h2 : b = [] := List.length_eq_zero_iff.1 hb
    simp [compareWholeWordValues, h1, h2]
  | 1, a, b, ha, hb => by
    rw [compareWholeWordValues, compareOneWord, List.take_of_length_le (by omega), List.take_of_length_le (by omega), beq_iff_eq]
    exact ⟨wordValue_inj (by omega), fun h => by rw [h]⟩
  | n + 2, a, b, ha, hb => by
    simp only [kWordSize] at ha hb
    have h1 : compareOneWord a b = true ↔ a.take 8 = b.take 8 := by
      rw [compareOneWord, beq_iff_eq]
      exact ⟨wordValue_inj (by simp [kWordSize]; omega), fun h => by simp only [kWordSize]; rw [h]⟩
    have h2 := compareWholeWordValues_iff (n + 1) (a := a.drop 8) (b := b.drop 8)
      (by simp [kWordSize]; omega) (by simp [kWordSize]; omega)
    rw [compareWholeWordValues, Bool.and_eq_true, h1]
    simp only [kWordSize] at h2 ⊢
    rw [h2]
    constructor
    · rintro ⟨h3, h4⟩
      rw [← List.take_append_drop 8 a, h3, h4, List.take_append_drop]
    · rintro rfl
      exact ⟨rfl, rfl⟩

theorem blockContentsMatch_iff (w : Bool) {a b : Bytes} (ha : a.length = kBlockSize) (hb : b.length = kBlockSize) :
    blockContentsMatch w a b = true ↔ a = b := by
  rw [blockContentsMatch]
  split
  · rename_i h
    simp only [Bool.false_eq_true, false_iff]
    rintro rfl
    exact h rfl
  · split
    · rw [blockCompareWords, compareWholeWordValues_iff _ (by rw [ha]; rfl) (by rw [hb]; rfl)]
    · exact beq_iff_eq

theorem block_length {source : Bytes} {k : Nat} (h : k * kBlockSize + kBlockSize ≤ source.length) :
    (Spec.block source k).length = kBlockSize := by
  simp only [Spec.block, kBlockSize] at *
  simp; omega

theorem skipNonMatching_spec {bh : BlockHash} {hs : List UInt32} (hi : bh.Inv hs) {block : Bytes}
    (hbl : block.length = kBlockSize) : ∀ probes start l, Spec.Chain bh.next start l → (∀ k ∈ l, k < bh.added) →
    ∃ r, bh.skipNonMatching block probes start = .ok r ∧
      ((r = none ∧ ∀ k ∈ l.take (probes + 1), Spec.block bh.source k ≠ block) ∨
       ∃ pre k post, r = some k ∧ l = pre ++ k :: post ∧ pre.length ≤ probes ∧
        Spec.block bh.source k = block ∧ (∀ j ∈ pre, Spec.block bh.source j ≠ block)) := by
  have hb := hi.bound
  intro probes
  induction probes with
  | zero =>
    intro start l hc hk
    cases hc with
    | done => exact ⟨none, rfl, Or.inl ⟨rfl, by simp⟩⟩
    | @step k n l hn hc =>
      have hkl := hk k (by simp)
      have hin : k * kBlockSize + kBlockSize ≤ bh.source.length := by
        simp only [numBlocks, kBlockSize] at *; omega
      rw [skipNonMatching, readBlock_ok hin]
      simp only [bind, Except.bind]
      have hmatch := blockContentsMatch_iff useBlockCompareWords hbl (block_length hin)
      by_cases he : block = Spec.block bh.source k
      · rw [if_pos (hmatch.2 he)]
        exact ⟨some k, rfl, Or.inr ⟨[], k, l, rfl, rfl, by simp, he.symm, by simp⟩⟩
      · rw [if_neg (fun h => he (hmatch.1 h))]
        exact ⟨none, rfl, Or.inl ⟨rfl, by simpa using fun h => he h.symm⟩⟩
  | succ probes ih =>
    intro start l hc hk
    cases hc with
    | done => exact ⟨none, rfl, Or.inl ⟨rfl, by simp⟩⟩
    | @step k n l hn hc =>
      have hkl := hk k (by simp)
      have hin : k * kBlockSize + kBlockSize ≤ bh.source.length := by
        simp only [numBlocks, kBlockSize] at *; omega
      rw [skipNonMatching, readBlock_ok hin]
      simp only [bind, Except.bind]
      have hmatch := blockContentsMatch_iff useBlockCompareWords hbl (block_length hin)
      by_cases he : block = Spec.block bh.source k
      · rw [if_pos (hmatch.2 he)]
        exact ⟨some k, rfl, Or.inr ⟨[], k, l, rfl, rfl, by simp, he.symm, by simp⟩⟩
      · rw [if_neg (fun h => he (hmatch.1 h)), hn]
        obtain ⟨r, hr, hor⟩ := ih n l hc (fun j hj => hk j (by simp [hj]))
        refine ⟨r, hr, ?_⟩
        rcases hor with ⟨h1, h2⟩ | ⟨pre, k', post, h1, h2, h3, h4, h5⟩
        · refine Or.inl ⟨h1, ?_⟩
          intro j hj
          rw [List.take_succ_cons, List.mem_cons] at hj
          rcases hj with rfl | hj
          · exact fun h => he h.symm
          · exact h2 j hj
        · refine Or.inr ⟨k :: pre, k', post, h1, by rw [h2]; rfl, by simpa using h3, h4, ?_⟩
          intro j hj
          rw [List.mem_cons] at hj
          rcases hj with rfl | hj
          · exact fun h => he h.symm
          · exact h5 j hj

/-- The matches among the numbers of a chain that are found: those with at most 16 others before them
since the last one, and no more than 64 of them. -/
theorem bestMatchLoop_spec {bh : BlockHash} {hs : List UInt32} (hi : bh.Inv hs) {target : Bytes} {candidate : Nat}
    {off : Nat} (hoff : bh.startingOffset = off) (hsrc : bh.source.length + off ≤ int32Max)
    (htgt : target.length ≤ int32Max) (hc : candidate + kBlockSize ≤ target.length)
    (m : Nat) : ∀ (l : List Nat) (k : Nat) (best : Match),
    Spec.Chain bh.next (some k) (k :: l) → (∀ j ∈ k :: l, j < bh.added) →
    Spec.block bh.source k = (target.drop candidate).take kBlockSize →
    ∃ r, bh.bestMatchLoop target ((target.drop candidate).take kBlockSize) candidate m (some k) best = .ok r ∧
      best.size ≤ r.size ∧
      (r = best ∨ ∃ n s t size, n ∈ k :: l ∧ Extension bh.source target candidate n s t size ∧
        best.size < size ∧ r = ⟨size, ((s + off : Nat) : Int), (t : Int)⟩) ∧
      (0 < m → ∀ s t size, Extension bh.source target candidate k s t size → size ≤ r.size) ∧
      (l.length < m → l.length ≤ kMaxProbes + 1 →
        ∀ j ∈ k :: l, ∀ s t size, Extension bh.source target candidate j s t size → size ≤ r.size) := by
  have hb := hi.bound
  induction m with
  | zero =>
    intro l k best _ _ _
    exact ⟨best, by cases l <;> rfl, Nat.le_refl _, Or.inl rfl, by omega, by omega⟩
  | succ m ih =>
    intro l k best hch hlt heq
    have hk := hlt k (by simp)
    have hin : k * kBlockSize + kBlockSize ≤ bh.source.length := by
      simp only [numBlocks, kBlockSize] at *; omega
    obtain ⟨s, t, size, hext, hres⟩ := extendMatch_spec (best := best) hoff hsrc htgt hin hc
      (by rw [← heq, Spec.block, Nat.mul_comm]; rfl)
    rw [bestMatchLoop]
    simp only [bind, Except.bind, hres]
    rw [nextMatchingBlock, if_neg (by omega)]
    cases hch with
    | @step _ n _ hn hch =>
    rw [hn]
    obtain ⟨r, hr, hor⟩ := skipNonMatching_spec hi (block := (target.drop candidate).take kBlockSize)
      (by rw [List.length_take, List.length_drop]; omega) kMaxProbes n l hch
      (fun j hj => hlt j (by simp [hj]))
    simp only [hr]
    have hb1 : best.size ≤ (best.replaceIfBetter size ((s + off : Nat) : Int) (t : Int)).size ∧
        size ≤ (best.replaceIfBetter size ((s + off : Nat) : Int) (t : Int)).size ∧
        (best.replaceIfBetter size ((s + off : Nat) : Int) (t : Int) = best ∨
          best.size < size ∧ best.replaceIfBetter size ((s + off : Nat) : Int) (t : Int) =
            ⟨size, ((s + off : Nat) : Int), (t : Int)⟩) := by
      rw [Match.replaceIfBetter]
      split
      · simp; omega
      · simp; omega
    generalize best.replaceIfBetter size ((s + off : Nat) : Int) (t : Int) = b1 at hb1
    obtain ⟨hb1, hb2, hb3⟩ := hb1
    have hfin : b1 = best ∨ ∃ n s t size, n ∈ k :: l ∧ Extension bh.source target candidate n s t size ∧
        best.size < size ∧ b1 = ⟨size, ((s + off : Nat) : Int), (t : Int)⟩ := by
      rcases hb3 with h | ⟨h, h'⟩
      · exact Or.inl h
      · exact Or.inr ⟨k, s, t, size, by simp, hext, h, h'⟩
    have huniq : ∀ s' t' size', Extension bh.source target candidate k s' t' size' → size' ≤ b1.size := by
      intro s' t' size' he
      have := hext.unique he
      omega
    rcases hor with ⟨rfl, hno⟩ | ⟨pre, k', post, rfl, hl, _, hk', hno⟩
    · refine ⟨b1, by cases m <;> rfl, hb1, hfin, fun _ => huniq, ?_⟩
      intro _ h2 j hj s t size he
      rcases List.mem_cons.1 hj with rfl | hj
      · exact huniq s t size he
      · rw [List.take_of_length_le h2] at hno
        exact absurd he.block_eq (hno j hj)
    · have hch' : Spec.Chain bh.next (some k') (k' :: post) := chain_suffix (hl ▸ hch)
      have hsub : ∀ j ∈ k' :: post, j ∈ k :: l := fun j hj =>
        List.mem_cons_of_mem _ (hl ▸ List.mem_append_right _ hj)
      obtain ⟨r, hr, hr1, hr2, hr3, hr4⟩ := ih post k' b1 hch' (fun j hj => hlt j (hsub j hj)) hk'
      refine ⟨r, hr, by omega, ?_, fun _ s t size he => Nat.le_trans (huniq s t size he) hr1, ?_⟩
      rotate_left
      · intro h1 h2 j hj s t size he
        have hlen : l.length = pre.length + (post.length + 1) := by rw [hl]; simp
        rcases List.mem_cons.1 hj with rfl | hj
        · exact Nat.le_trans (huniq s t size he) hr1
        · rw [hl] at hj
          rcases List.mem_append.1 hj with hj | hj
          · exact absurd he.block_eq (hno j hj)
          · exact hr4 (by omega) (by omega) j hj s t size he
      rcases hr2 with h | ⟨n, s, t, size, h1, h2, h3, h4⟩
      · rw [h]; exact hfin
      · exact Or.inr ⟨n, s, t, size, hsub n h1, h2,
          by omega, h4⟩

theorem findBestMatch_spec {bh : BlockHash} {hs : List UInt32} (hi : bh.Inv hs) {target : Bytes} {candidate : Nat}
    {off : Nat} (hoff : bh.startingOffset = off) (hsrc : bh.source.length + off ≤ int32Max)
    (htgt : target.length ≤ int32Max) (hc : candidate + kBlockSize ≤ target.length) (h : UInt32) (best : Match) :
    ∃ r, bh.findBestMatch h target candidate best = .ok r ∧ best.size ≤ r.size ∧
      (r = best ∨ ∃ n s t size, n < bh.added ∧ Extension bh.source target candidate n s t size ∧
        best.size < size ∧ r = ⟨size, ((s + off : Nat) : Int), (t : Int)⟩) ∧
      (∀ pre k post, bucket bh.mask hs (bh.index h) = pre ++ k :: post → pre.length ≤ kMaxProbes →
        (∀ j ∈ pre, Spec.block bh.source j ≠ (target.drop candidate).take kBlockSize) →
        Spec.block bh.source k = (target.drop candidate).take kBlockSize →
        ∀ s t size, Extension bh.source target candidate k s t size → size ≤ r.size) ∧
      ((bucket bh.mask hs (bh.index h)).length ≤ kMaxProbes + 1 → ∀ k ∈ bucket bh.mask hs (bh.index h),
        ∀ s t size, Extension bh.source target candidate k s t size → size ≤ r.size) := by
  obtain ⟨start, hst, hch⟩ := hi.chain (index_lt hi h)
  have hmem : ∀ k ∈ bucket bh.mask hs (bh.index h), k < bh.added := by
    intro k hk
    simp only [bucket, List.mem_filter, List.mem_range] at hk
    rw [← hi.added]; exact hk.1
  rw [findBestMatch, readBlock, if_pos hc]
  simp only [bind, Except.bind]
  rw [firstMatchingBlock, hst]
  obtain ⟨r, hr, hor⟩ := skipNonMatching_spec hi (block := (target.drop candidate).take kBlockSize)
      (by rw [List.length_take, List.length_drop]; omega) kMaxProbes start _ hch hmem
  simp only [hr]
  rcases hor with ⟨rfl, hno⟩ | ⟨pre, k, post, rfl, hl, hpl, hk, hpre⟩
  · refine ⟨best, rfl, Nat.le_refl _, Or.inl rfl, ?_, ?_⟩
    · intro pre k post hl hp _ hk
      exfalso
      refine hno k ?_ hk
      rw [hl, show kMaxProbes + 1 = pre.length + ((kMaxProbes - pre.length) + 1) by omega, List.take_append]
      simp only [List.mem_append]
      right
      rw [show pre.length + (kMaxProbes - pre.length + 1) - pre.length = kMaxProbes - pre.length + 1 by omega,
        List.take_succ_cons]
      simp
    · intro hlen k hk s t size he
      rw [List.take_of_length_le hlen] at hno
      exact absurd he.block_eq (hno k hk)
  · have hch' : Spec.Chain bh.next (some k) (k :: post) := chain_suffix (hl ▸ hch)
    have hsub : ∀ j ∈ k :: post, j ∈ bucket bh.mask hs (bh.index h) := fun j hj =>
      hl ▸ List.mem_append_right _ hj
    obtain ⟨r, hr, h1, h2, h3, h4⟩ := bestMatchLoop_spec hi hoff hsrc htgt hc kMaxMatchesToCheck post k best hch'
      (fun j hj => hmem j (hsub j hj)) hk
    refine ⟨r, hr, h1, ?_, ?_, ?_⟩
    · rcases h2 with h | ⟨n, s, t, size, h4, h5⟩
      · exact Or.inl h
      · exact Or.inr ⟨n, s, t, size, hmem n (hsub n h4), h5⟩
    · intro pre' k' post' hl' _ hpre' hk' s t size he
      have hkk : k' = k := first_unique
        (p := fun j => Spec.block bh.source j = (target.drop candidate).take kBlockSize) (hl'.symm.trans hl) hpre' hk' hpre hk
      subst hkk
      exact h3 (by decide) s t size he
    · intro hlen j hj s t size he
      have hll : (bucket bh.mask hs (bh.index h)).length = pre.length + (post.length + 1) := by rw [hl]; simp
      rw [hl] at hj
      rcases List.mem_append.1 hj with hj | hj
      · exact absurd he.block_eq (hpre j hj)
      · exact h4 (by simp only [kMaxMatchesToCheck, kMaxProbes] at *; omega) (by omega) j hj s t size he

end BlockHash

/-! ## Histories of additions -/

open Spec

theorem addOp_inv {bh bh' : BlockHash} {hs : List UInt32} {o : AddOp} (hi : bh.Inv hs) (ho : bh.Honest hs)
    (hlen : bh.source.length ≤ int32Max) (hon : o.Honest bh.source) (h : o.run bh = .ok bh') :
    ∃ hs', bh'.Inv hs' ∧ bh'.Honest hs' ∧ bh'.source = bh.source ∧
      bh'.startingOffset = bh.startingOffset := by
  cases o with
  | one i v =>
    simp only [AddOp.run, BlockHash.addOneIndexHash] at h
    split at h
    · rename_i hidx
      by_cases hb : bh.added < bh.numBlocks
      · obtain ⟨bh1, h1, h2, h3, h4, _⟩ := hi.addBlock v hb
        rw [h1] at h
        cases h
        have hv : v = RollingHash.hash (block bh.source hs.length) := by
          have := hon (by simp only [BlockHash.numBlocks, kBlockSize] at *; omega)
          rw [this, block, hi.added, hidx, Nat.mul_comm]; rfl
        exact ⟨_, h2, hv ▸ BlockHash.Honest.snoc ho h3, h3, h4⟩
      · rw [BlockHash.addBlock, if_neg, if_pos (by omega)] at h
        · cases h
        · intro e; have := hi.mask; rw [e] at this; simp at this
    · cases h; exact ⟨hs, hi, ho, rfl, rfl⟩
  | through e =>
    simp only [AddOp.run] at h
    have hl := hlen
    simp only [int32Max] at hl
    by_cases h1 : e ≤ bh.source.length
    · by_cases h2 : ((bh.added : Int) - 1) * kBlockSize < e
      · obtain ⟨bh1, hs1, h3, h4, h5, h6, h7, _⟩ := BlockHash.addAllBlocks_ok hi ho hlen h1 h2
        rw [h3] at h
        cases h
        exact ⟨hs1, h4, h5, h6, h7⟩
      · rw [BlockHash.addAllBlocksThroughIndex, toInt32_of_lt hl, if_neg (by omega), if_pos (by omega)] at h
        cases h
    · rw [BlockHash.addAllBlocksThroughIndex, toInt32_of_lt hl, if_pos (by omega)] at h
      cases h

theorem addOps_inv {ops : List AddOp} : ∀ {bh bh' : BlockHash} {hs : List UInt32}, bh.Inv hs → bh.Honest hs →
    bh.source.length ≤ int32Max → (∀ o ∈ ops, o.Honest bh.source) → AddOp.runAll bh ops = .ok bh' →
    ∃ hs', bh'.Inv hs' ∧ bh'.Honest hs' ∧ bh'.source = bh.source ∧
      bh'.startingOffset = bh.startingOffset := by
  induction ops with
  | nil => intro bh bh' hs hi ho _ _ h; cases h; exact ⟨hs, hi, ho, rfl, rfl⟩
  | cons o os ih =>
    intro bh bh' hs hi ho hlen hon h
    rw [AddOp.runAll] at h
    split at h
    · cases h
    · rename_i bh1 h1
      obtain ⟨hs1, h2, h3, h4, h4'⟩ := addOp_inv hi ho hlen (hon o (by simp)) h1
      obtain ⟨hs2, h5, h6, h7, h7'⟩ := ih h2 h3 (by rw [h4]; exact hlen)
        (fun o ho => by rw [h4]; exact hon o (by simp [ho])) h
      exact ⟨hs2, h5, h6, h7.trans h4, h7'.trans h4'⟩

theorem bucket_eq {bh : BlockHash} {hs : List UInt32} (hi : bh.Inv hs) (ho : bh.Honest hs) (i : Nat) :
    BlockHash.bucket bh.mask hs i =
      (List.range bh.added).filter fun k => bh.index (RollingHash.hash (block bh.source k)) == i := by
  rw [BlockHash.bucket, hi.added]
  apply List.filter_congr
  intro k hk
  simp only [List.mem_range] at hk
  rw [BlockHash.slot, List.getD_eq_getElem?_getD, ho k (by rw [hi.added]; exact hk)]
  rfl

end Vcd
