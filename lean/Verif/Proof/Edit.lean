import Verif.Spec.Edit
import Verif.Proof.EngineGreedy
import Verif.Props.Encoder

/-! # The instructions for an edited version of the dictionary -/

namespace Vcd
open Spec

/-- The number of positions that two ranges have in common. -/
def overlap (lo hi x y : Nat) : Nat := min hi y - max lo x

theorem overlap_split (b l t x y : Nat) : overlap b (b + l) x y + overlap (b + l) (b + l + t) x y = overlap b (b + l + t) x y := by
  simp only [overlap]; omega

theorem overlap_add (lo hi x y z : Nat) (h1 : x ≤ y) (h2 : y ≤ z) :
    overlap lo hi x y + overlap lo hi y z = overlap lo hi x z := by
  simp only [overlap]; omega

namespace Spec

/-- The size of a piece. -/
def Piece.size : Piece → Nat
  | .old _ size => size
  | .fresh text => text.length

def Piece.isOld : Piece → Bool
  | .old _ _ => true
  | .fresh _ => false

/-- The pieces with their positions. -/
def place : Nat → List Piece → List (Nat × Piece)
  | _, [] => []
  | b, p :: ps => (b, p) :: place (b + p.size) ps

def totalSize : List Piece → Nat
  | [] => 0
  | p :: ps => p.size + totalSize ps

/-- The positions from `x` up to `y` in fresh pieces, and in old ones. -/
def freshIn : Nat → List Piece → Nat → Nat → Nat
  | _, [], _, _ => 0
  | b, p :: ps, x, y => (if p.isOld then 0 else overlap b (b + p.size) x y) + freshIn (b + p.size) ps x y

def oldIn : Nat → List Piece → Nat → Nat → Nat
  | _, [], _, _ => 0
  | b, p :: ps, x, y => (if p.isOld then overlap b (b + p.size) x y else 0) + oldIn (b + p.size) ps x y

/-- The pieces that end after `x`, but not after `y`; and the old ones among them. -/
def ends : Nat → List Piece → Nat → Nat → Nat
  | _, [], _, _ => 0
  | b, p :: ps, x, y => (if x < b + p.size ∧ b + p.size ≤ y then 1 else 0) + ends (b + p.size) ps x y

def oldEnds : Nat → List Piece → Nat → Nat → Nat
  | _, [], _, _ => 0
  | b, p :: ps, x, y => (if p.isOld ∧ x < b + p.size ∧ b + p.size ≤ y then 1 else 0) + oldEnds (b + p.size) ps x y

theorem cover (ps : List Piece) (b x y : Nat) : freshIn b ps x y + oldIn b ps x y = overlap b (b + totalSize ps) x y := by
  induction ps generalizing b with
  | nil => simp only [freshIn, oldIn, totalSize, overlap]; omega
  | cons p ps ih =>
    have := ih (b + p.size)
    have := overlap_split b p.size (totalSize ps) x y
    simp only [freshIn, oldIn, totalSize]
    rw [show b + (p.size + totalSize ps) = b + p.size + totalSize ps by omega]
    split <;> omega

theorem freshIn_add (ps : List Piece) (b x y z : Nat) (h1 : x ≤ y) (h2 : y ≤ z) :
    freshIn b ps x y + freshIn b ps y z = freshIn b ps x z := by
  induction ps generalizing b with
  | nil => rfl
  | cons p ps ih =>
    have := ih (b + p.size)
    have := overlap_add b (b + p.size) x y z h1 h2
    simp only [freshIn]
    split <;> omega

theorem ends_add (ps : List Piece) (b x y z : Nat) (h1 : x ≤ y) (h2 : y ≤ z) :
    ends b ps x y + ends b ps y z = ends b ps x z := by
  induction ps generalizing b with
  | nil => rfl
  | cons p ps ih =>
    have := ih (b + p.size)
    simp only [ends]
    split <;> split <;> split <;> omega

theorem oldEnds_add (ps : List Piece) (b x y z : Nat) (h1 : x ≤ y) (h2 : y ≤ z) :
    oldEnds b ps x y + oldEnds b ps y z = oldEnds b ps x z := by
  induction ps generalizing b with
  | nil => rfl
  | cons p ps ih =>
    have := ih (b + p.size)
    simp only [oldEnds]
    cases p.isOld <;> simp only [Bool.false_eq_true, false_and, if_false, true_and] <;> (try split) <;> (try split) <;>
      (try split) <;> omega

theorem ends_le (ps : List Piece) (b x y : Nat) : ends b ps x y ≤ ps.length := by
  induction ps generalizing b with
  | nil => simp [ends]
  | cons p ps ih =>
    have := ih (b + p.size)
    simp only [ends, List.length_cons]
    split <;> omega

theorem oldEnds_le (ps : List Piece) (b x y : Nat) : oldEnds b ps x y ≤ oldPieces ps := by
  induction ps generalizing b with
  | nil => simp [oldEnds]
  | cons p ps ih =>
    have := ih (b + p.size)
    simp only [oldEnds]
    cases p <;> simp only [Piece.isOld, oldPieces, Bool.false_eq_true, false_and, if_false, true_and] <;> (try split) <;> omega

theorem freshIn_le (ps : List Piece) (b x y : Nat) : freshIn b ps x y ≤ freshBytes ps := by
  induction ps generalizing b with
  | nil => simp [freshIn]
  | cons p ps ih =>
    have := ih (b + p.size)
    cases p with
    | old s n => simpa [freshIn, freshBytes, Piece.isOld] using this
    | fresh t =>
      simp only [freshIn, freshBytes, Piece.isOld, overlap, Piece.size] at this ⊢
      simp only [Bool.false_eq_true, if_false]
      omega

theorem place_at (ps : List Piece) (b x : Nat) (h1 : b ≤ x) (h2 : x < b + totalSize ps) :
    ∃ q ∈ place b ps, q.1 ≤ x ∧ x < q.1 + q.2.size := by
  induction ps generalizing b with
  | nil => simp only [totalSize] at h2; omega
  | cons p ps ih =>
    simp only [place, totalSize] at h2 ⊢
    by_cases h : x < b + p.size
    · exact ⟨_, List.mem_cons_self .., h1, h⟩
    · obtain ⟨q, hq, h3⟩ := ih (b + p.size) (by omega) (by omega)
      exact ⟨q, List.mem_cons_of_mem _ hq, h3⟩

theorem ends_pos (ps : List Piece) (b x y : Nat) {q : Nat × Piece} (hq : q ∈ place b ps) (h1 : x < q.1 + q.2.size)
    (h2 : q.1 + q.2.size ≤ y) : 1 ≤ ends b ps x y := by
  induction ps generalizing b with
  | nil => simp [place] at hq
  | cons p ps ih =>
    simp only [place, List.mem_cons] at hq
    simp only [ends]
    rcases hq with rfl | hq
    · simp only at h1 h2
      rw [if_pos ⟨h1, h2⟩]; omega
    · have := ih (b + p.size) hq
      omega

theorem freshIn_ge (ps : List Piece) (b x y : Nat) {q : Nat × Piece} (hq : q ∈ place b ps) (h1 : q.2.isOld = false) :
    overlap q.1 (q.1 + q.2.size) x y ≤ freshIn b ps x y := by
  induction ps generalizing b with
  | nil => simp [place] at hq
  | cons p ps ih =>
    simp only [place, List.mem_cons] at hq
    simp only [freshIn]
    rcases hq with rfl | hq
    · simp only at h1 ⊢
      rw [h1]; simp
    · have := ih (b + p.size) hq
      omega

theorem oldIn_le (ps : List Piece) (b x y z : Nat)
    (h : ∀ q ∈ place b ps, q.2.isOld = true → overlap q.1 (q.1 + q.2.size) x y ≤ 31 ∧
      (0 < overlap q.1 (q.1 + q.2.size) x y → x < q.1 + q.2.size ∧ q.1 + q.2.size ≤ z)) :
    oldIn b ps x y ≤ 31 * oldEnds b ps x z := by
  induction ps generalizing b with
  | nil => simp [oldIn]
  | cons p ps ih =>
    have h1 := ih (b + p.size) (fun q hq => h q (by simp only [place]; exact List.mem_cons_of_mem _ hq))
    have h2 := h (b, p) (by simp [place])
    simp only [oldIn, oldEnds] at h1 h2 ⊢
    cases hp : p.isOld with
    | false => simp only [Bool.false_eq_true, if_false, false_and] ; omega
    | true =>
      simp only [if_true, true_and]
      have h2 := h2 hp
      split <;> omega

theorem revise_length (dict : Bytes) (ps : List Piece) (h : ∀ p ∈ ps, p.Within dict) :
    (revise dict ps).length = totalSize ps := by
  induction ps with
  | nil => rfl
  | cons p ps ih =>
    have := ih fun q hq => h q (List.mem_cons_of_mem _ hq)
    have hp := h p (List.mem_cons_self ..)
    simp only [revise, List.flatMap_cons, List.length_append, totalSize] at this ⊢
    rw [this]
    cases p with
    | old s n =>
      simp only [Piece.Within] at hp
      simp only [Piece.text, Piece.size, List.length_take, List.length_drop]; omega
    | fresh t => rfl

theorem Piece.text_length {dict : Bytes} {p : Piece} (h : p.Within dict) : (p.text dict).length = p.size := by
  cases p with
  | old s n =>
    simp only [Piece.Within] at h
    simp only [Piece.text, Piece.size, List.length_take, List.length_drop]; omega
  | fresh t => rfl

/-- The text at the position of a piece. -/
theorem revise_at (dict : Bytes) (ps : List Piece) (h : ∀ p ∈ ps, p.Within dict) (before : Bytes) {q : Nat × Piece}
    (hq : q ∈ place before.length ps) (i : Nat) (hi : i < q.2.size) :
    (before ++ revise dict ps)[q.1 + i]? = (q.2.text dict)[i]? ∧ q.2 ∈ ps := by
  induction ps generalizing before with
  | nil => simp [place] at hq
  | cons p ps ih =>
    have hp := Piece.text_length (h p (List.mem_cons_self ..))
    simp only [place, List.mem_cons] at hq
    simp only [revise, List.flatMap_cons]
    rcases hq with rfl | hq
    · simp only at hi ⊢
      rw [List.getElem?_append_right (by omega), List.getElem?_append_left (by omega)]
      exact ⟨by congr 1; omega, List.mem_cons_self ..⟩
    · have := ih (fun q hq => h q (List.mem_cons_of_mem _ hq)) (before ++ p.text dict)
        (by rw [List.length_append, hp]; exact hq)
      rw [List.append_assoc] at this
      exact ⟨this.1, List.mem_cons_of_mem _ this.2⟩

end Spec

namespace Engine

section
variable {dict target : Bytes} {matching : Bool} {ops : List Op} {ps : List Piece}

theorem Whole.total (h : Whole dict target matching ops) : sizes ops = target.length := by
  have := execOps_length ops dict
  rw [h.exec, List.length_append] at this; omega

/-- An old piece at a position: its bytes. -/
theorem old_at (hw : ∀ p ∈ ps, p.Within dict) (ht : target = revise dict ps) {lo s n : Nat}
    (hq : (lo, Piece.old s n) ∈ place 0 ps) (i : Nat) (hi : i < n) :
    target[lo + i]? = dict[s + i]? ∧ s + n ≤ dict.length := by
  have := revise_at dict ps hw [] (q := (lo, .old s n)) hq i hi
  simp only [List.nil_append, Piece.text] at this
  rw [List.getElem?_take, if_pos hi, List.getElem?_drop, ← ht] at this
  exact ⟨this.1, hw _ this.2⟩

/-- A COPY that begins in an old piece goes on to its end at least. -/
theorem copy_reaches (hw : ∀ p ∈ ps, p.Within dict) (ht : target = revise dict ps) (hd : Distinct dict)
    (hm : matching = true → Distinct target) {p a k lo s n : Nat} (hc : Copies dict target matching p a k)
    (hq : (lo, Piece.old s n) ∈ place 0 ps) (h1 : lo ≤ p) (h2 : p < lo + n) : lo + n ≤ p + k := by
  apply Nat.le_of_not_lt
  intro hlt
  have hk := hc.size
  have hin := hc.inTarget
  have heq : ∀ i < k, (dict ++ target)[a + i]? = target[p + i]? := by
    intro i hi
    rw [hc.equal i hi, List.getElem?_append_right (by omega)]
    congr 1; omega
  have hold := fun i hi => old_at hw ht hq i hi
  rcases hc.inDict with hdict | ⟨rfl, hge⟩
  · have ha : a = s + (p - lo) := by
      refine hd a (s + (p - lo)) (by omega) (by have := (hold 0 (by omega)).2; omega) ?_
      rw [BlockHash.slice_eq]
      intro i hi
      have e := heq i (by omega)
      rw [List.getElem?_append_left (by omega)] at e
      rw [e]
      have := (hold (p - lo + i) (by omega)).1
      rw [show lo + (p - lo + i) = p + i by omega] at this
      rw [this]; congr 1; omega
    have hs := (hold 0 (by omega)).2
    have hl : lo + n ≤ target.length := by
      apply Nat.le_of_not_lt
      intro hgt
      have := (hold (n - 1) (by omega)).1
      rw [List.getElem?_eq_none (by omega), List.getElem?_eq_getElem (by omega)] at this
      cases this
    rcases hc.right with h | h | h
    · omega
    · omega
    · apply h
      rw [List.getElem?_append_left (by omega), List.getElem?_append_right (by omega)]
      have := (hold (p - lo + k) (by omega)).1
      rw [show lo + (p - lo + k) = p + k by omega] at this
      rw [show dict.length + p + k - dict.length = p + k by omega, this]
      congr 1; omega
  · have := hm rfl (a - dict.length) p (by have := hc.below; omega) (by omega) (by
      rw [BlockHash.slice_eq]
      intro i hi
      have e := heq i (by omega)
      rw [List.getElem?_append_right (by omega)] at e
      rw [← e]; congr 1; omega)
    have := hc.below
    omega

/-- An ADD has at most 31 bytes in common with an old piece. -/
theorem add_overlap (hw : ∀ p ∈ ps, p.Within dict) (ht : target = revise dict ps)
    (hroom : ∀ b, (sharing dict (dict.length / 16) b).length ≤ 17) {pre post : List Op} {lit : Bytes}
    (h : Whole dict target matching (pre ++ .add lit :: post)) {lo s n : Nat} (hq : (lo, Piece.old s n) ∈ place 0 ps) :
    overlap lo (lo + n) (sizes pre) (sizes pre + lit.length) ≤ 31 := by
  apply Nat.le_of_not_lt
  intro hgt
  simp only [overlap] at hgt
  obtain ⟨l1, l2⟩ := h.literal
  have hold := fun i hi => old_at hw ht hq i hi
  have hs := (hold 0 (by omega)).2
  refine no_dictionary_piece h hroom (i := max lo (sizes pre) - sizes pre) (j := s + (max lo (sizes pre) - lo)) (by omega)
    (by omega) ?_
  rw [l1, List.drop_take, List.take_take, List.drop_drop, Nat.min_eq_left (by omega), BlockHash.slice_eq]
  intro i hi
  have := (hold (max lo (sizes pre) - lo + i) (by omega)).1
  rw [show lo + (max lo (sizes pre) - lo + i) = sizes pre + (max lo (sizes pre) - sizes pre) + i by omega] at this
  rw [this]; congr 1; omega

/-- The main counts. -/
theorem edit_counts (hw : ∀ p ∈ ps, p.Within dict) (ht : target = revise dict ps) (hd : Distinct dict)
    (hm : matching = true → Distinct target) (hroom : ∀ b, (sharing dict (dict.length / 16) b).length ≤ 17)
    (h : Whole dict target matching ops) (fuel : Nat) :
    ∀ pre post, post.length ≤ fuel → ops = pre ++ post →
      added post ≤ freshIn 0 ps (sizes pre) target.length + 31 * oldEnds 0 ps (sizes pre) target.length ∧
      32 * copies post ≤ freshIn 0 ps (sizes pre) target.length + 32 * ends 0 ps (sizes pre) target.length ∧
      adds post ≤ copies post + 1 := by
  have hlen : target.length = totalSize ps := by rw [ht]; exact revise_length dict ps hw
  have htot := h.total
  -- one COPY
  have copy1 : ∀ p a k, Copies dict target matching p a k → 32 ≤ freshIn 0 ps p (p + k) + 32 * ends 0 ps p (p + k) := by
    intro p a k hc
    have hk := hc.size
    have hin := hc.inTarget
    obtain ⟨⟨lo, pc⟩, hq, q1, q2⟩ := place_at ps 0 p (by omega) (by omega)
    simp only at q1 q2
    by_cases hend : lo + pc.size ≤ p + k
    · have := ends_pos ps 0 p (p + k) hq q2 hend
      omega
    · cases pc with
      | old s n => exact absurd (copy_reaches hw ht hd hm hc hq q1 q2) hend
      | fresh t =>
        have := freshIn_ge ps 0 p (p + k) hq rfl
        simp only [overlap, Piece.size] at this hend
        omega
  -- one ADD, with what follows it up to `z`
  have add1 : ∀ pre lit post z, ops = pre ++ .add lit :: post → sizes pre + lit.length ≤ z →
      (∀ lo s n, (lo, Piece.old s n) ∈ place 0 ps → lo ≤ sizes pre + lit.length → sizes pre + lit.length < lo + n → lo + n ≤ z) →
      lit.length ≤ freshIn 0 ps (sizes pre) (sizes pre + lit.length) + 31 * oldEnds 0 ps (sizes pre) z := by
    intro pre lit post z he hz hreach
    have hle : sizes pre + lit.length ≤ target.length := (he ▸ h : Whole dict target matching (pre ++ .add lit :: post)).literal.2
    have hcov := cover ps 0 (sizes pre) (sizes pre + lit.length)
    have := oldIn_le ps 0 (sizes pre) (sizes pre + lit.length) z (fun q hq ho => by
      obtain ⟨lo, pc⟩ := q
      cases pc with
      | fresh t => cases ho
      | old s n =>
        refine ⟨add_overlap hw ht hroom (he ▸ h) hq, fun hpos => ?_⟩
        simp only [overlap, Piece.size] at hpos ⊢
        refine ⟨by omega, ?_⟩
        by_cases hin : lo + n ≤ sizes pre + lit.length
        · omega
        · exact hreach lo s n hq (by omega) (by omega))
    simp only [overlap] at hcov
    omega
  induction fuel with
  | zero =>
    intro pre post hl he
    have : post = [] := by simpa using hl
    subst this
    simp [added, copies, adds]
  | succ fuel ih =>
    intro pre post hl he
    -- the rest after a COPY
    have rest : ∀ pre' a k post', ops = pre' ++ .copy a k :: post' → post'.length ≤ fuel →
        added post' ≤ freshIn 0 ps (sizes pre' + k) target.length + 31 * oldEnds 0 ps (sizes pre' + k) target.length ∧
        32 * copies (.copy a k :: post') ≤ freshIn 0 ps (sizes pre') target.length + 32 * ends 0 ps (sizes pre') target.length ∧
        adds post' ≤ copies (.copy a k :: post') := by
      intro pre' a k post' he' hl'
      have hc := h.copies pre' a k post' he'
      have hin := hc.inTarget
      obtain ⟨i1, i2, i3⟩ := ih (pre' ++ [.copy a k]) post' hl' (by rw [he']; simp)
      have hsz : sizes (pre' ++ [.copy a k]) = sizes pre' + k := by
        rw [sizes_append]; simp [sizes, Op.size]
      rw [hsz] at i1 i2
      have c1 := copy1 _ _ _ hc
      have f1 := freshIn_add ps 0 (sizes pre') (sizes pre' + k) target.length (by omega) hin
      have e1 := ends_add ps 0 (sizes pre') (sizes pre' + k) target.length (by omega) hin
      simp only [copies]
      exact ⟨i1, by omega, by omega⟩
    cases post with
    | nil => simp [added, copies, adds]
    | cons o post =>
      have hl' : post.length ≤ fuel := by simpa using hl
      have hem := h.emittable pre o post he
      cases o with
      | run b n => exact absurd hem (by simp [Emittable])
      | copy a k =>
        obtain ⟨r1, r2, r3⟩ := rest pre a k post he hl'
        have hin := (h.copies pre a k post he).inTarget
        have f1 := freshIn_add ps 0 (sizes pre) (sizes pre + k) target.length (by omega) hin
        have o1 := oldEnds_add ps 0 (sizes pre) (sizes pre + k) target.length (by omega) hin
        refine ⟨?_, r2, by simp only [adds, copies] at r3 ⊢; omega⟩
        simp only [added]
        omega
      | add lit =>
        have hle := (he ▸ h : Whole dict target matching (pre ++ .add lit :: post)).literal.2
        cases post with
        | nil =>
          have := add1 pre lit [] target.length he hle (fun lo s n hq h1 h2 => by
            have hs : sizes pre + lit.length = target.length := by
              rw [← htot, he, sizes_append]; simp [sizes, Op.size]
            have := (old_at hw ht hq (n - 1) (by omega))
            have h3 := this.1
            rw [List.getElem?_eq_none (by omega), List.getElem?_eq_getElem (by omega)] at h3
            cases h3)
          have f1 := freshIn_add ps 0 (sizes pre) (sizes pre + lit.length) target.length (by omega) hle
          simp only [added, copies, adds]
          omega
        | cons o post =>
          obtain ⟨a, k, rfl⟩ := h.noAddAdd pre lit o post he
          have he' : ops = (pre ++ [.add lit]) ++ .copy a k :: post := by rw [he]; simp
          have hsz : sizes (pre ++ [.add lit]) = sizes pre + lit.length := by
            rw [sizes_append]; simp [sizes, Op.size]
          have hc := h.copies _ a k post he'
          have hin := hc.inTarget
          rw [hsz] at hc hin
          obtain ⟨r1, r2, r3⟩ := rest (pre ++ [.add lit]) a k post he' (by simp at hl'; omega)
          rw [hsz] at r1 r2
          have a1 := add1 pre lit _ (sizes pre + lit.length + k) he (by omega)
            (fun lo s n hq h1 h2 => copy_reaches hw ht hd hm hc hq h1 h2)
          have f1 := freshIn_add ps 0 (sizes pre) (sizes pre + lit.length) target.length (by omega) hle
          have f2 := freshIn_add ps 0 (sizes pre + lit.length) (sizes pre + lit.length + k) target.length (by omega) hin
          have o1 := oldEnds_add ps 0 (sizes pre) (sizes pre + lit.length + k) target.length (by omega) hin
          have e1 := ends_add ps 0 (sizes pre) (sizes pre + lit.length) target.length (by omega) hle
          refine ⟨?_, ?_, ?_⟩
          · simp only [added]
            omega
          · simp only [copies] at r2 ⊢
            omega
          · simp only [adds, copies] at r3 ⊢
            omega

end
end Engine
end Vcd
