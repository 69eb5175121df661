import Verif.Model.AddrCache
import Verif.Spec.AddrCache
import Verif.Proof.Varint

/-! Lemmas about the address cache. -/

namespace Vcd
open Spec

theorem nearSlot_nil (n i : Nat) : nearSlot n [] i = 0 := by simp [nearSlot]

theorem nearSlot_snoc (n : Nat) (hist : List Nat) (a i : Nat) :
    nearSlot n (hist ++ [a]) i = if hist.length % n = i then a else nearSlot n hist i := by
  simp only [nearSlot, List.zipIdx_append, List.filter_append]
  by_cases h : hist.length % n = i
  · simp [h]
  · simp [h]

theorem sameSlot_nil (s j : Nat) : sameSlot s [] j = 0 := by simp [sameSlot]

theorem sameSlot_snoc (s : Nat) (hist : List Nat) (a j : Nat) :
    sameSlot s (hist ++ [a]) j = if a % (s * 256) = j then a else sameSlot s hist j := by
  simp only [sameSlot, List.filter_append]
  by_cases h : a % (s * 256) = j
  · simp [h]
  · simp [h]

theorem sameSlot_mod (s : Nat) (hist : List Nat) (j : Nat) :
    sameSlot s hist j = 0 ∨ sameSlot s hist j % (s * 256) = j := by
  simp only [sameSlot]
  cases h : (hist.filter (fun a => decide (a % (s * 256) = j))).getLast? with
  | none => simp
  | some a =>
    right
    have := List.mem_of_getLast? h
    simp at this
    simpa using this.2

namespace AddrCache

/-- The cache contents as a function of the history. -/
def ofHist (n s : Nat) (hist : List Nat) : AddrCache :=
  { nearSize := n, sameSize := s, nextSlot := if n = 0 then 0 else hist.length % n,
    near := (List.range n).map (nearSlot n hist),
    same := (List.range (s * 256)).map (sameSlot s hist) }

theorem init_new (n s : Nat) :
    (new n s).init = if n + s > 254 then none else some (ofHist n s []) := by
  have hn : (List.range n).map (nearSlot n []) = List.replicate n 0 := by
    apply List.ext_getElem <;> simp [nearSlot_nil]
  have hs : (List.range (s * 256)).map (sameSlot s []) = List.replicate (s * 256) 0 := by
    apply List.ext_getElem <;> simp [sameSlot_nil]
  by_cases h : n + s > 254
  · simp [init, new, h]
  · rcases Nat.eq_zero_or_pos n with rfl | h1 <;> rcases Nat.eq_zero_or_pos s with rfl | h2 <;>
      simp_all [init, new, ofHist]

theorem init_ofHist (n s : Nat) (hist : List Nat) :
    (ofHist n s hist).init = if n + s > 254 then none else some (ofHist n s []) := by
  have hn : (List.range n).map (nearSlot n []) = List.replicate n 0 := by
    apply List.ext_getElem <;> simp [nearSlot_nil]
  have hs : (List.range (s * 256)).map (sameSlot s []) = List.replicate (s * 256) 0 := by
    apply List.ext_getElem <;> simp [sameSlot_nil]
  by_cases h : n + s > 254
  · simp [init, ofHist, h]
  · rcases Nat.eq_zero_or_pos n with rfl | h1 <;> rcases Nat.eq_zero_or_pos s with rfl | h2 <;>
      simp_all [init, ofHist]

theorem update_ofHist (n s : Nat) (hist : List Nat) (a : Nat) :
    (ofHist n s hist).update a = some (ofHist n s (hist ++ [a])) := by
  have hsame : 0 < s → ((List.range (s * 256)).map (sameSlot s hist)).set (a % (s * 256)) a
      = (List.range (s * 256)).map (sameSlot s (hist ++ [a])) := by
    intro hs
    apply List.ext_getElem
    · simp
    · intro i h1 h2
      simp only [List.getElem_set, List.getElem_map, List.getElem_range, sameSlot_snoc]
  have hnear : 0 < n → ((List.range n).map (nearSlot n hist)).set (hist.length % n) a
      = (List.range n).map (nearSlot n (hist ++ [a])) := by
    intro hn
    apply List.ext_getElem
    · simp
    · intro i h1 h2
      simp only [List.getElem_set, List.getElem_map, List.getElem_range, nearSlot_snoc]
  have hs256 : 0 < s → a % (s * 256) < s * 256 := fun h => Nat.mod_lt _ (by omega)
  have hm : 0 < n → hist.length % n < n := fun h => Nat.mod_lt _ h
  by_cases hn : n = 0
  · subst hn
    by_cases hs : s = 0
    · subst hs; simp [update, ofHist]
    · have hs' : 0 < s := by omega
      simp [update, ofHist, hs', hs256 hs', hsame hs']
  · have hn' : 0 < n := by omega
    by_cases hs : s = 0
    · subst hs
      simp [update, ofHist, hn, hn', hm hn', hnear hn']
    · have hs' : 0 < s := by omega
      simp [update, ofHist, hs', hs256 hs', hsame hs', hn, hn', hm hn', hnear hn']

theorem afterHistory_eq (n s : Nat) (hist : List Nat) :
    afterHistory n s hist = if n + s > 254 then none else some (ofHist n s hist) := by
  rw [afterHistory, init_new]
  split
  · induction hist with
    | nil => rfl
    | cons a as ih => simpa using ih
  · have : ∀ (pre : List Nat), List.foldl (fun c a => c.bind (·.update a)) (some (ofHist n s pre)) hist
        = some (ofHist n s (pre ++ hist)) := by
      induction hist with
      | nil => simp
      | cons a as ih =>
        intro pre
        simp only [List.foldl_cons, Option.bind_some, update_ofHist]
        rw [ih]; simp
    simpa using this []

theorem near_getElem? (n s : Nat) (hist : List Nat) (i : Nat) :
    (ofHist n s hist).near[i]? = if i < n then some (nearSlot n hist i) else none := by
  simp only [ofHist, List.getElem?_map]
  split
  · rename_i h; simp [h]
  · rename_i h; simp; omega

theorem same_getElem? (n s : Nat) (hist : List Nat) (i : Nat) :
    (ofHist n s hist).same[i]? = if i < s * 256 then some (sameSlot s hist i) else none := by
  simp only [ofHist, List.getElem?_map]
  split
  · rename_i h; simp [h]
  · rename_i h; simp; omega

section modes
variable {n s : Nat} {hist : List Nat}

theorem firstSameMode_ofHist (hn : n ≤ 253) : (ofHist n s hist).firstSameMode = 2 + n := by
  simp only [firstSameMode, ofHist]; omega

theorem isSameMode_iff (hn : n ≤ 253) (hns : n + s ≤ 254) (mode : Nat) :
    (ofHist n s hist).isSameMode mode = true ↔ ∃ i < s, mode = 2 + n + i := by
  simp only [isSameMode, lastMode, firstSameMode_ofHist hn, Bool.and_eq_true, decide_eq_true_eq]
  simp only [ofHist]
  constructor
  · rintro ⟨h1, h2⟩
    exact ⟨mode - (2 + n), by omega, by omega⟩
  · rintro ⟨i, h1, rfl⟩
    exact ⟨by omega, by omega⟩

theorem isNearMode_iff (hn : n ≤ 253) (mode : Nat) :
    (ofHist n s hist).isNearMode mode = true ↔ ∃ i < n, mode = 2 + i := by
  simp only [isNearMode, firstSameMode_ofHist hn, Bool.and_eq_true, decide_eq_true_eq]
  constructor
  · rintro ⟨h1, h2⟩
    exact ⟨mode - 2, by omega, by omega⟩
  · rintro ⟨i, h1, rfl⟩
    exact ⟨by omega, by omega⟩

end modes

/-- What the NEAR loop of `EncodeAddress` computes. -/
theorem encodeNearLoop_spec (a : Nat) (rest : List Nat) (i bm be : Nat) (m e : Nat)
    (h : encodeNearLoop a i rest (bm, be) = (m, e)) :
    e ≤ be ∧ (∀ j (hj : j < rest.length), rest[j] ≤ a → e ≤ a - rest[j]) ∧
    ((m = bm ∧ e = be) ∨
      ∃ j, ∃ hj : j < rest.length, m = (2 + (i + j)) % 256 ∧ rest[j] ≤ a ∧ e = a - rest[j]) := by
  induction rest generalizing i bm be with
  | nil =>
    simp only [encodeNearLoop, Prod.mk.injEq] at h
    obtain ⟨rfl, rfl⟩ := h
    exact ⟨Nat.le_refl _, by simp, Or.inl ⟨rfl, rfl⟩⟩
  | cons x xs ih =>
    simp only [encodeNearLoop] at h
    split at h
    · rename_i hc
      obtain ⟨h1, h2, h3⟩ := ih _ _ _ h
      refine ⟨by omega, ?_, ?_⟩
      · intro j hj hle
        cases j with
        | zero => simpa using h1
        | succ j => exact h2 j (by simpa using hj) (by simpa using hle)
      · right
        rcases h3 with ⟨rfl, rfl⟩ | ⟨j, hj, h4, h5, h6⟩
        · exact ⟨0, by simp, by simp, by simpa using hc.1, by simp⟩
        · refine ⟨j + 1, by simpa using hj, ?_, by simpa using h5, by simpa using h6⟩
          rw [h4]; congr 2; omega
    · rename_i hc
      obtain ⟨h1, h2, h3⟩ := ih _ _ _ h
      refine ⟨h1, ?_, ?_⟩
      · intro j hj hle
        cases j with
        | zero =>
          simp only [List.getElem_cons_zero] at hle ⊢
          have : ¬ (a - x < be) := fun hh => hc ⟨hle, hh⟩
          omega
        | succ j => exact h2 j (by simpa using hj) (by simpa using hle)
      · rcases h3 with ⟨rfl, rfl⟩ | ⟨j, hj, h4, h5, h6⟩
        · exact Or.inl ⟨rfl, rfl⟩
        · right
          refine ⟨j + 1, by simpa using hj, ?_, by simpa using h5, by simpa using h6⟩
          rw [h4]; congr 2; omega

/-- The possible encodings of an address other than the SAME form, and that the chosen one is the
least. -/
theorem encodeAddress_ofHist (n s : Nat) (hist : List Nat) (hn : n ≤ 253) (hns : n + s ≤ 254)
    (a here : Nat) (hlt : a < here) :
    ∃ mode enc, (ofHist n s hist).encodeAddress a here
        = .ok mode enc (ofHist n s (hist ++ [a])) ∧
      ((0 < s ∧ sameSlot s hist (a % (s * 256)) = a ∧
          mode = 2 + n + a % (s * 256) / 256 ∧ enc = a % 256) ∨
       (¬ (0 < s ∧ sameSlot s hist (a % (s * 256)) = a) ∧
         enc ≤ a ∧ enc ≤ here - a ∧
         (∀ i < n, nearSlot n hist i ≤ a → enc ≤ a - nearSlot n hist i) ∧
         ((mode = 0 ∧ enc = a) ∨ (mode = 1 ∧ enc = here - a) ∨
          ∃ i < n, mode = 2 + i ∧ nearSlot n hist i ≤ a ∧ enc = a - nearSlot n hist i))) := by
  have hrest : ∀ best : Nat × Nat,
      ∃ mode enc, encodeNearLoop a 0 ((ofHist n s hist).near.take (ofHist n s hist).nearSize) best
        = (mode, enc) ∧ enc ≤ best.2 ∧
        (∀ i < n, nearSlot n hist i ≤ a → enc ≤ a - nearSlot n hist i) ∧
        ((mode = best.1 ∧ enc = best.2) ∨
          ∃ i < n, mode = 2 + i ∧ nearSlot n hist i ≤ a ∧ enc = a - nearSlot n hist i) := by
    intro best
    have htake : (ofHist n s hist).near.take (ofHist n s hist).nearSize
        = (List.range n).map (nearSlot n hist) := by
      simp only [ofHist]
      rw [List.take_of_length_le]; simp
    rw [htake]
    obtain ⟨h1, h2, h3⟩ := encodeNearLoop_spec a _ 0 best.1 best.2 _ _
      (rfl : encodeNearLoop a 0 ((List.range n).map (nearSlot n hist)) (best.1, best.2) = _)
    refine ⟨_, _, rfl, h1, ?_, ?_⟩
    · intro i hi hle
      have := h2 i (by simpa using hi) (by simpa using hle)
      simpa using this
    · rcases h3 with h3 | ⟨j, hj, h4, h5, h6⟩
      · exact Or.inl h3
      · right
        have hj' : j < n := by simpa using hj
        exact ⟨j, hj', by rw [h4]; omega, by simpa using h5, by simpa using h6⟩
  have hlen : ¬ (ofHist n s hist).near.length < (ofHist n s hist).nearSize := by simp [ofHist]
  have hss : (ofHist n s hist).sameSize = s := rfl
  -- the non-SAME branch
  have hmain : ¬ (0 < s ∧ sameSlot s hist (a % (s * 256)) = a) →
      ∃ mode enc,
        (if (ofHist n s hist).near.length < (ofHist n s hist).nearSize then
            EncodeResult.fault .cacheOob
         else
          match (ofHist n s hist).update a with
          | none => .fault .cacheOob
          | some c' => .ok
            (encodeNearLoop a 0 ((ofHist n s hist).near.take (ofHist n s hist).nearSize)
              (if here - a < a then (1, here - a) else (0, a))).1
            (encodeNearLoop a 0 ((ofHist n s hist).near.take (ofHist n s hist).nearSize)
              (if here - a < a then (1, here - a) else (0, a))).2 c')
          = .ok mode enc (ofHist n s (hist ++ [a])) ∧
         enc ≤ a ∧ enc ≤ here - a ∧
         (∀ i < n, nearSlot n hist i ≤ a → enc ≤ a - nearSlot n hist i) ∧
         ((mode = 0 ∧ enc = a) ∨ (mode = 1 ∧ enc = here - a) ∨
          ∃ i < n, mode = 2 + i ∧ nearSlot n hist i ≤ a ∧ enc = a - nearSlot n hist i) := by
    intro _
    rw [if_neg hlen, update_ofHist]
    obtain ⟨mode, enc, h1, h2, h3, h4⟩ := hrest (if here - a < a then (1, here - a) else (0, a))
    refine ⟨mode, enc, by simp only [h1], ?_, ?_, h3, ?_⟩
    · split at h2
      · exact Nat.le_trans h2 (by simp only; omega)
      · simpa using h2
    · split at h2
      · simpa using h2
      · exact Nat.le_trans h2 (by simp only; omega)
    · rcases h4 with ⟨h5, h6⟩ | h4
      · split at h5
        · rename_i hc; rw [if_pos hc] at h6; exact Or.inr (Or.inl ⟨h5, h6⟩)
        · rename_i hc; rw [if_neg hc] at h6; exact Or.inl ⟨h5, h6⟩
      · exact Or.inr (Or.inr h4)
  have e1 : ¬ ((a : Int) < 0) := by omega
  have e2 : ¬ ((a : Int) ≥ here) := by omega
  simp only [encodeAddress, if_neg e1, if_neg e2, Int.toNat_natCast, hss]
  by_cases hs : 0 < s
  · rw [if_pos hs]
    have hp : a % (s * 256) < s * 256 := Nat.mod_lt _ (by omega)
    rw [same_getElem?, if_pos hp]
    simp only []
    by_cases hq : sameSlot s hist (a % (s * 256)) = a
    · rw [if_pos hq, update_ofHist]
      simp only [firstSameMode_ofHist hn]
      refine ⟨_, _, rfl, Or.inl ⟨hs, hq, ?_, ?_⟩⟩
      · have : a % (s * 256) / 256 < s := by
          rw [Nat.div_lt_iff_lt_mul (by decide)]; exact hp
        omega
      · exact Nat.mod_mod_of_dvd a ⟨s, Nat.mul_comm _ _⟩
    · rw [if_neg hq]
      obtain ⟨mode, enc, h1, h2⟩ := hmain (fun h => hq h.2)
      exact ⟨mode, enc, h1, Or.inr ⟨fun h => hq h.2, h2⟩⟩
  · rw [if_neg hs]
    obtain ⟨mode, enc, h1, h2⟩ := hmain (fun h => hs h.1)
    exact ⟨mode, enc, h1, Or.inr ⟨fun h => hs h.1, h2⟩⟩

theorem commitDecoded_ofHist (n s : Nat) (hist : List Nat) (here a : Nat) (rest : Bytes) :
    (ofHist n s hist).commitDecoded here a rest =
      if a < here then .ok a rest (ofHist n s (hist ++ [a])) else .error := by
  simp only [commitDecoded, Int.toNat_natCast, update_ofHist]
  rw [if_neg (by omega)]
  split
  · rw [if_neg (by omega)]
  · rw [if_pos (by omega)]

/-- A varint-coded address is decoded, whatever follows it. -/
theorem decodeAddress_complete {n s : Nat} {hist : List Nat} (hn : n ≤ 253) (hns : n + s ≤ 254)
    {here a mode : Nat} {bs rest : Bytes} (hlt : a < here) (hh : here ≤ int32Max)
    (h : AddrCode n s hist here mode bs a) :
    (ofHist n s hist).decodeAddress here mode (bs ++ rest)
      = .ok a rest (ofHist n s (hist ++ [a])) := by
  have hpos : ¬ ((here : Int) < 0) := by omega
  have hvar : ∀ bs, IsVarint bs → varintValue bs ≤ int32Max →
      (∃ b bs', bs = b :: bs') ∧ parseVarint32 (bs ++ rest) = .ok (varintValue bs) rest := by
    intro bs hv hle
    refine ⟨?_, (parseVarint_ok_iff maxVal32 (by decide) _ _ _).2 ⟨bs, rfl, hv, rfl, hle⟩⟩
    obtain ⟨f, l, rfl, _⟩ := hv
    cases f with
    | nil => exact ⟨l, [], rfl⟩
    | cons x xs => exact ⟨x, xs ++ [l], rfl⟩
  cases h with
  | self hv ha =>
    obtain ⟨⟨b, bs', rfl⟩, hp⟩ := hvar bs hv (by omega)
    have hns' : ¬ ((ofHist n s hist).isSameMode 0 = true) := by
      rw [isSameMode_iff hn hns]; rintro ⟨i, _, h⟩; omega
    rw [List.cons_append] at hp
    rw [decodeAddress.eq_def, if_neg hpos]
    simp only [List.cons_append, hp, if_neg hns', if_true]
    rw [← ha, commitDecoded_ofHist, if_pos hlt]
  | here hv ha =>
    obtain ⟨⟨b, bs', rfl⟩, hp⟩ := hvar bs hv (by omega)
    have hns' : ¬ ((ofHist n s hist).isSameMode 1 = true) := by
      rw [isSameMode_iff hn hns]; rintro ⟨i, _, h⟩; omega
    rw [List.cons_append] at hp
    rw [decodeAddress.eq_def, if_neg hpos]
    simp only [List.cons_append, hp, if_neg hns', if_true]
    rw [if_neg (by decide)]
    have : (here : Int) - (varintValue (b :: bs') : Int) = (a : Int) := by omega
    rw [this, commitDecoded_ofHist, if_pos hlt]
  | @near i _ _ hi hv ha =>
    obtain ⟨⟨b, bs', rfl⟩, hp⟩ := hvar bs hv (by omega)
    have hns' : ¬ ((ofHist n s hist).isSameMode (2 + i) = true) := by
      rw [isSameMode_iff hn hns]; rintro ⟨i, _, h⟩; omega
    have hnr : (ofHist n s hist).isNearMode (2 + i) = true := by
      rw [isNearMode_iff hn]; exact ⟨i, hi, rfl⟩
    rw [List.cons_append] at hp
    rw [decodeAddress.eq_def, if_neg hpos]
    simp only [List.cons_append, hp, if_neg hns', if_pos hnr]
    rw [if_neg (by omega), if_neg (by omega), Nat.add_sub_cancel_left, near_getElem?, if_pos hi]
    simp only []
    rw [if_neg (by omega), ← ha, commitDecoded_ofHist, if_pos hlt]
  | @same i b _ hi ha =>
    have hsm : (ofHist n s hist).isSameMode (2 + n + i) = true := by
      rw [isSameMode_iff hn hns]; exact ⟨i, hi, rfl⟩
    rw [decodeAddress.eq_def, if_neg hpos]
    simp only [List.cons_append, List.nil_append, if_pos hsm, firstSameMode_ofHist hn]
    rw [Nat.add_sub_cancel_left, same_getElem?, if_pos (by have := byte_lt b; omega)]
    simp only []
    rw [← ha, commitDecoded_ofHist, if_pos hlt]

/-- With 254 NEAR slots no address is decoded. -/
theorem decodeAddress_near {n s : Nat} {hist : List Nat} (hns : n + s ≤ 254)
    {mode : Nat} (hm : mode < 256) {here : Int} {a : Nat} {stream rest : Bytes} {c' : AddrCache}
    (h : (ofHist n s hist).decodeAddress here mode stream = .ok a rest c') : n ≤ 253 := by
  by_cases hn : n ≤ 253
  · exact hn
  exfalso
  have hn' : n = 254 := by omega
  have hs : s = 0 := by omega
  subst hn' hs
  have h1 : (ofHist 254 0 hist).firstSameMode = 0 := by simp [firstSameMode, ofHist]
  have h2 : (ofHist 254 0 hist).isSameMode mode = true := by
    simp only [isSameMode, lastMode, h1, Bool.and_eq_true, decide_eq_true_eq]
    simp only [ofHist]; omega
  rw [decodeAddress.eq_def] at h
  split at h
  · simp at h
  · cases stream with
    | nil => simp at h
    | cons b bs =>
      simp only [same_getElem?] at h
      rw [if_neg (by omega)] at h
      simp at h

/-- Everything `DecodeAddress` accepts is an address code of the specification. -/
theorem decodeAddress_sound {n s : Nat} {hist : List Nat} (hn : n ≤ 253) (hns : n + s ≤ 254)
    {here a mode : Nat} {stream rest : Bytes} {c' : AddrCache}
    (h : (ofHist n s hist).decodeAddress here mode stream = .ok a rest c') :
    a < here ∧ c' = ofHist n s (hist ++ [a]) ∧
    ∃ bs, stream = bs ++ rest ∧ AddrCode n s hist here mode bs a := by
  have hpos : ¬ ((here : Int) < 0) := by omega
  have commit : ∀ (a' : Nat) (r : Bytes),
      (ofHist n s hist).commitDecoded here a' r = .ok a rest c' →
      a < here ∧ c' = ofHist n s (hist ++ [a]) ∧ a' = a ∧ r = rest := by
    intro a' r h
    rw [commitDecoded_ofHist] at h
    split at h
    · injection h with h1 h2 h3; subst h1; exact ⟨by assumption, h3.symm, rfl, h2⟩
    · cases h
  rw [decodeAddress.eq_def, if_neg hpos] at h
  cases stream with
  | nil => cases h
  | cons b bs =>
    simp only [] at h
    split at h
    · rename_i hsm
      obtain ⟨i, hi, rfl⟩ := (isSameMode_iff hn hns mode).1 hsm
      rw [firstSameMode_ofHist hn, Nat.add_sub_cancel_left, same_getElem?,
        if_pos (by have := byte_lt b; omega)] at h
      obtain ⟨h1, h2, h3, h4⟩ := commit _ _ h
      exact ⟨h1, h2, [b], by simp [h4], .same hi h3.symm⟩
    · cases hp : parseVarint32 (b :: bs) with
      | error => rw [hp] at h; cases h
      | endOfData => rw [hp] at h; cases h
      | ok enc r =>
        rw [hp] at h
        obtain ⟨vb, e1, e2, e3, e4⟩ := (parseVarint_ok_iff maxVal32 (by decide) _ _ _).1 hp
        simp only [] at h
        split at h
        · rename_i hm; subst hm
          obtain ⟨h1, h2, h3, h4⟩ := commit _ _ h
          subst h4
          exact ⟨h1, h2, vb, e1, .self e2 (by omega)⟩
        · split at h
          · rename_i hm; subst hm
            by_cases hle : enc ≤ here
            · have : (here : Int) - (enc : Int) = ((here - enc : Nat) : Int) := by omega
              rw [this] at h
              obtain ⟨h1, h2, h3, h4⟩ := commit _ _ h
              subst h4
              exact ⟨h1, h2, vb, e1, .here e2 (by omega)⟩
            · simp only [commitDecoded] at h
              rw [if_pos (by omega)] at h
              cases h
          · split at h
            · rename_i hnm
              obtain ⟨i, hi, rfl⟩ := (isNearMode_iff hn mode).1 hnm
              rw [Nat.add_sub_cancel_left, near_getElem?, if_pos hi] at h
              simp only [] at h
              split at h
              · cases h
              · obtain ⟨h1, h2, h3, h4⟩ := commit _ _ h
                subst h4
                exact ⟨h1, h2, vb, e1, .near hi e2 (by omega)⟩
            · cases h

/-- The only fault `DecodeAddress` can reach on a cache with fewer than 254 NEAR slots is the
overflow of the NEAR addition. -/
theorem decodeAddress_fault {n s : Nat} {hist : List Nat} (hn : n ≤ 253) (hns : n + s ≤ 254)
    {here : Int} {mode : Nat} {stream : Bytes} {f : Fault}
    (h : (ofHist n s hist).decodeAddress here mode stream = .fault f) :
    f = .nearOverflow ∧ ∃ i < n, mode = 2 + i ∧ ∃ enc rest, parseVarint32 stream = .ok enc rest ∧
      nearSlot n hist i + enc > int32Max := by
  have commit : ∀ (d : Int) (r : Bytes),
      (ofHist n s hist).commitDecoded here d r ≠ .fault f := by
    intro d r h
    rw [commitDecoded] at h
    split at h
    · cases h
    · split at h
      · cases h
      · rw [update_ofHist] at h; cases h
  rw [decodeAddress.eq_def] at h
  split at h
  · cases h
  cases stream with
  | nil => cases h
  | cons b bs =>
    simp only [] at h
    split at h
    · rename_i hsm
      obtain ⟨i, hi, rfl⟩ := (isSameMode_iff hn hns mode).1 hsm
      rw [firstSameMode_ofHist hn, Nat.add_sub_cancel_left, same_getElem?,
        if_pos (by have := byte_lt b; omega)] at h
      exact absurd h (commit _ _)
    · cases hp : parseVarint32 (b :: bs) with
      | error => rw [hp] at h; cases h
      | endOfData => rw [hp] at h; cases h
      | ok enc r =>
        rw [hp] at h
        simp only [] at h
        split at h
        · exact absurd h (commit _ _)
        · split at h
          · exact absurd h (commit _ _)
          · split at h
            · rename_i hnm
              obtain ⟨i, hi, rfl⟩ := (isNearMode_iff hn mode).1 hnm
              rw [Nat.add_sub_cancel_left, near_getElem?, if_pos hi] at h
              simp only [] at h
              split at h
              · rename_i hov
                injection h with h; subst h
                exact ⟨rfl, i, hi, rfl, enc, r, rfl, hov⟩
              · exact absurd h (commit _ _)
            · cases h

/-- What `EncodeAddress` and the writer produce is an address code of the specification. -/
theorem encode_is_AddrCode (n s : Nat) (hist : List Nat) (hn : n ≤ 253) (hns : n + s ≤ 254)
    (a here : Nat) (hlt : a < here) (hh : here ≤ int32Max) :
    ∃ mode enc bs, (ofHist n s hist).encodeAddress a here
        = .ok mode enc (ofHist n s (hist ++ [a])) ∧
      (ofHist n s (hist ++ [a])).addressBytes mode enc = some bs ∧
      AddrCode n s hist here mode bs a ∧ mode < 2 + n + s ∧ 1 ≤ bs.length ∧ bs.length ≤ 5 ∧
      (∀ mode' bs', AddrCode n s hist here mode' bs' a → bs.length ≤ bs'.length) := by
  obtain ⟨mode, enc, h1, h2⟩ := encodeAddress_ofHist n s hist hn hns a here hlt
  have hvar : ¬ ((ofHist n s (hist ++ [a])).isSameMode mode = true) → enc ≤ int32Max →
      ∃ bs, (ofHist n s (hist ++ [a])).addressBytes mode enc = some bs ∧ IsVarint bs ∧
        varintValue bs = enc ∧ bs.length ≤ 5 ∧ (enc ≠ 0 → 128 ^ (bs.length - 1) ≤ enc) ∧
        (enc = 0 → bs.length = 1) := by
    intro hm he
    simp only [addressBytes, if_neg hm]
    obtain ⟨bs, b1, b2, b3, b4, b5, b6⟩ := encodeVarint_spec maxBytes32 enc (by decide)
      (by simp only [maxBytes32]; simp only [int32Max] at he; omega)
    exact ⟨bs, b1, b2, b3, b4, b5, b6⟩
  rcases h2 with ⟨hs, hq, hm, he⟩ | ⟨hnq, he1, he2, he3, he4⟩
  · have hp : a % (s * 256) < s * 256 := Nat.mod_lt _ (by omega)
    have hlt' : a % (s * 256) / 256 < s := by
      rw [Nat.div_lt_iff_lt_mul (by decide)]; exact hp
    have hsm : (ofHist n s (hist ++ [a])).isSameMode mode = true :=
      (isSameMode_iff hn hns mode).2 ⟨_, hlt', hm⟩
    refine ⟨mode, enc, [UInt8.ofNat enc], h1, by simp [addressBytes, hsm], ?_, by omega, by simp,
      by simp, ?_⟩
    · rw [hm]
      refine .same hlt' ?_
      have : (UInt8.ofNat enc).toNat = a % (s * 256) % 256 := by
        rw [UInt8.toNat_ofNat', he, Nat.mod_mod_of_dvd a ⟨s, Nat.mul_comm _ _⟩]
        omega
      rw [this]
      have e : a % (s * 256) / 256 * 256 + a % (s * 256) % 256 = a % (s * 256) := by omega
      rw [e, hq]
    · intro mode' bs' hc
      have : bs' ≠ [] := by
        rintro rfl
        cases hc with
        | self hv _ => obtain ⟨f, l, h, _⟩ := hv; simp at h
        | here hv _ => obtain ⟨f, l, h, _⟩ := hv; simp at h
        | near _ hv _ => obtain ⟨f, l, h, _⟩ := hv; simp at h
      have := List.length_pos_iff.2 this
      simp; omega
  · have hmode : ¬ ((ofHist n s (hist ++ [a])).isSameMode mode = true) := by
      rw [isSameMode_iff hn hns]
      rintro ⟨i, hi, hm⟩
      rcases he4 with ⟨h, _⟩ | ⟨h, _⟩ | ⟨j, hj, h, _⟩ <;> omega
    obtain ⟨bs, b1, b2, b3, b4, b5, b6⟩ := hvar hmode (by omega)
    have hlen : 1 ≤ bs.length := by obtain ⟨f, l, h, _⟩ := b2; simp [h]
    refine ⟨mode, enc, bs, h1, b1, ?_, ?_, hlen, b4, ?_⟩
    · rcases he4 with ⟨rfl, h⟩ | ⟨rfl, h⟩ | ⟨j, hj, rfl, h, h'⟩
      · exact .self b2 (by omega)
      · exact .here b2 (by omega)
      · exact .near hj b2 (by omega)
    · rcases he4 with ⟨rfl, h⟩ | ⟨rfl, h⟩ | ⟨j, hj, rfl, h, h'⟩ <;> omega
    · -- minimality
      clear he4
      have key : ∀ bs', IsVarint bs' → enc ≤ varintValue bs' → bs.length ≤ bs'.length := by
        intro bs' hv hle
        by_cases h0 : enc = 0
        · rw [b6 h0]; obtain ⟨f, l, h, _⟩ := hv; simp [h]
        · have x := b5 h0
          have y := varintValue_lt bs'
          have := (Nat.pow_lt_pow_iff_right (a := 128) (by decide)).1
            (Nat.lt_of_le_of_lt (Nat.le_trans x hle) y)
          omega
      intro mode' bs' hc
      cases hc with
      | self hv ha => exact key _ hv (by omega)
      | here hv ha => exact key _ hv (by omega)
      | near hi hv ha => 
        have h4 := he3 _ hi (by omega)
        exact key _ hv (by omega)
      | @same i b _ hi ha =>
        -- then the address is 0, which needs one byte anyway
        rcases sameSlot_mod s hist (i * 256 + b.toNat) with h | h
        · have : enc = 0 := by omega
          rw [b6 this]; simp
        · rw [← ha] at h
          exact absurd ⟨by omega, by rw [h, ← ha]⟩ hnq

end AddrCache
end Vcd
