import Verif.Model.BlockHash
import Verif.Spec.BlockHash
import Verif.Proof.RollingHash
import Verif.Proof.Exec

/-! # Lemmas about the tables of a block hash -/

namespace Vcd

/-! ## Table size -/

theorem calcTableLoop_spec (m : Nat) (hm : m ≤ 2 ^ 63) :
    ∀ fuel k, 65 ≤ fuel + k → k ≤ 64 → (k = 0 ∨ 2 ^ k < 2 * m) → k ≤ 63 →
      ∃ j, calcTableLoop m fuel (2 ^ k) = 2 ^ j ∧ m ≤ 2 ^ j ∧ (2 ^ j < 2 * m ∨ j = 0) := by
  intro fuel
  induction fuel with
  | zero => intro k h1 h2; omega
  | succ fuel ih =>
    intro k h1 h2 h3 h4
    rw [calcTableLoop]
    by_cases hlt : 2 ^ k < m
    · rw [if_pos hlt]
      have hk : k < 63 := by
        rcases Nat.lt_or_ge k 63 with h | h
        · exact h
        · have := Nat.pow_le_pow_right (show 0 < 2 by decide) h; omega
      have hp : 2 ^ k * 2 % size64 = 2 ^ (k + 1) := by
        rw [Nat.pow_succ]
        apply Nat.mod_eq_of_lt
        have : 2 ^ k < 2 ^ 63 := Nat.pow_lt_pow_right (by decide) hk
        show _ < 18446744073709551616
        omega
      have hpos : 2 ^ (k + 1) ≠ 0 := by
        have := Nat.two_pow_pos (k + 1); omega
      simp only [hp, if_neg hpos]
      exact ih (k + 1) (by omega) (by omega) (Or.inr (by rw [Nat.pow_succ]; omega)) (by omega)
    · rw [if_neg hlt]
      exact ⟨k, rfl, by omega, h3.symm⟩

theorem calcTableSize_spec (n : Nat) (hn : n < size64) :
    ∃ j, calcTableSize n = 2 ^ j ∧ n / 4 + 1 ≤ 2 ^ j ∧ (2 ^ j < 2 * (n / 4 + 1) ∨ j = 0) := by
  have hn' : n < 18446744073709551616 := hn
  obtain ⟨j, h1, h2, h3⟩ := calcTableLoop_spec (n / 4 + 1) (by omega) 65 0 (by omega) (by omega)
    (Or.inl rfl) (by omega)
  refine ⟨j, ?_, h2, h3⟩
  rw [Nat.pow_zero] at h1
  have hpos := Nat.two_pow_pos j
  rw [calcTableSize]
  simp only [h1]
  rw [if_neg (by omega), if_neg (by rw [Nat.and_two_pow_sub_one_eq_mod, Nat.mod_self]; omega), if_neg]
  rintro ⟨_, hgt⟩
  have : (n / 4 + 1) * 2 % size64 = (n / 4 + 1) * 2 := Nat.mod_eq_of_lt (by show _ < 18446744073709551616; omega)
  rw [this] at hgt
  rcases h3 with h | h
  · omega
  · rw [h] at hgt; omega

/-! ## Sublists of `List.range` -/

theorem head?_filter_range {p : Nat → Bool} {n f : Nat} (h : ((List.range n).filter p).head? = some f) :
    f < n ∧ p f = true ∧ ∀ j < f, p j = false := by
  rw [List.head?_filter] at h
  have := List.find?_range_eq_some.1 h
  exact ⟨by simpa using this.2.1, this.1, fun j hj => by simpa using this.2.2 j hj⟩

theorem getLast?_filter_range {p : Nat → Bool} {n l : Nat}
    (h : ((List.range n).filter p).getLast? = some l) :
    l < n ∧ p l = true ∧ ∀ j, l < j → j < n → p j = false := by
  induction n with
  | zero => simp at h
  | succ n ih =>
    rw [List.range_succ, List.filter_append] at h
    by_cases hp : p n = true
    · rw [List.filter_cons_of_pos hp, List.filter_nil, List.getLast?_append] at h
      simp at h
      subst h
      exact ⟨by omega, hp, fun j _ _ => by omega⟩
    · rw [List.filter_cons_of_neg hp, List.filter_nil, List.append_nil] at h
      obtain ⟨h1, h2, h3⟩ := ih h
      refine ⟨by omega, h2, fun j hj hjn => ?_⟩
      rcases Nat.lt_or_ge j n with h' | h'
      · exact h3 j hj h'
      · have : j = n := by omega
        subst this; simpa using hp

namespace BlockHash

/-! ## Buckets -/

/-- The bucket of the `k`-th added block. -/
def slot (mask : Nat) (hs : List UInt32) (k : Nat) : Nat := (hs.getD k 0).toNat &&& mask

/-- The blocks in bucket `i`, in order. -/
def bucket (mask : Nat) (hs : List UInt32) (i : Nat) : List Nat :=
  (List.range hs.length).filter fun k => slot mask hs k == i

/-- The blocks after block `k` in its bucket, in order. -/
def later (mask : Nat) (hs : List UInt32) (k : Nat) : List Nat :=
  (List.range hs.length).filter fun j => decide (k < j) && slot mask hs j == slot mask hs k

theorem slot_append_lt {mask : Nat} {hs : List UInt32} {h : UInt32} {k : Nat} (hk : k < hs.length) :
    slot mask (hs ++ [h]) k = slot mask hs k := by
  simp [slot, List.getElem?_append_left hk]

theorem slot_append_eq {mask : Nat} {hs : List UInt32} {h : UInt32} :
    slot mask (hs ++ [h]) hs.length = h.toNat &&& mask := by
  simp [slot]

theorem bucket_append (mask : Nat) (hs : List UInt32) (h : UInt32) (i : Nat) :
    bucket mask (hs ++ [h]) i = bucket mask hs i ++ (if h.toNat &&& mask = i then [hs.length] else []) := by
  rw [bucket, List.length_append, List.length_singleton, List.range_succ, List.filter_append, bucket]
  congr 1
  · apply List.filter_congr
    intro k hk
    rw [slot_append_lt (by simpa using hk)]
  · by_cases e : h.toNat &&& mask = i
    · rw [if_pos e, List.filter_cons_of_pos (by simp [slot_append_eq, e]), List.filter_nil]
    · rw [if_neg e, List.filter_cons_of_neg (by simp [slot_append_eq, e]), List.filter_nil]

theorem later_append {mask : Nat} {hs : List UInt32} {h : UInt32} {k : Nat} (hk : k < hs.length) :
    later mask (hs ++ [h]) k =
      later mask hs k ++ (if h.toNat &&& mask = slot mask hs k then [hs.length] else []) := by
  rw [later, List.length_append, List.length_singleton, List.range_succ, List.filter_append, later]
  congr 1
  · apply List.filter_congr
    intro j hj
    rw [slot_append_lt (by simpa using hj), slot_append_lt hk]
  · by_cases e : h.toNat &&& mask = slot mask hs k
    · rw [if_pos e, List.filter_cons_of_pos (by simp [slot_append_eq, slot_append_lt hk, e, hk]), List.filter_nil]
    · rw [if_neg e, List.filter_cons_of_neg (by simp [slot_append_eq, slot_append_lt hk, e]), List.filter_nil]

theorem later_append_eq (mask : Nat) (hs : List UInt32) (h : UInt32) :
    later mask (hs ++ [h]) hs.length = [] := by
  rw [later, List.filter_eq_nil_iff]
  intro j hj
  simp only [List.mem_range, List.length_append, List.length_singleton] at hj
  simp only [Bool.and_eq_true, decide_eq_true_eq, not_and]
  intro; omega

/-- What holds of a block hash to which blocks with the hash values `hs` have been added. -/
structure Inv (bh : BlockHash) (hs : List UInt32) : Prop where
  added : hs.length = bh.added
  bound : bh.added ≤ bh.numBlocks
  mask : bh.mask < bh.table.length
  nextLen : bh.next.length = bh.numBlocks
  lastLen : bh.last.length = bh.numBlocks
  table : ∀ i < bh.table.length, bh.table[i]? = some (bucket bh.mask hs i).head?
  next : ∀ k < hs.length, bh.next[k]? = some (later bh.mask hs k).head?
  fresh : ∀ k, hs.length ≤ k → k < bh.numBlocks → bh.next[k]? = some none
  last : ∀ k < hs.length, (∀ j < k, slot bh.mask hs j ≠ slot bh.mask hs k) →
    bh.last[k]? = some (bucket bh.mask hs (slot bh.mask hs k)).getLast?

theorem index_lt {bh : BlockHash} {hs : List UInt32} (hi : bh.Inv hs) (h : UInt32) :
    bh.index h < bh.table.length := Nat.lt_of_le_of_lt Nat.and_le_right hi.mask

/-- The tables after creation. -/
theorem Inv.initial {source : Bytes} {off : Int} {n : Nat} {mask : Nat} (hm : mask < n) :
    Inv { source, startingOffset := off, table := List.replicate n none, mask,
          next := List.replicate (source.length / kBlockSize) none,
          last := List.replicate (source.length / kBlockSize) none, added := 0 } [] where
  added := rfl
  bound := Nat.zero_le _
  mask := by simpa using hm
  nextLen := by simp [numBlocks]
  lastLen := by simp [numBlocks]
  table := by
    intro i hi
    simp only [List.length_replicate] at hi
    simp [bucket, hi]
  next := by intro k hk; simp at hk
  fresh := by intro k _ hk; simp only [numBlocks] at hk; simp [hk]
  last := by intro k hk; simp at hk

/-- Adding a block. -/
theorem Inv.addBlock {bh : BlockHash} {hs : List UInt32} (hi : bh.Inv hs) (h : UInt32)
    (hb : bh.added < bh.numBlocks) :
    ∃ bh', bh.addBlock h = .ok bh' ∧ bh'.Inv (hs ++ [h]) ∧ bh'.source = bh.source ∧
      bh'.startingOffset = bh.startingOffset ∧ bh'.added = bh.added + 1 := by
  have hne : bh.table ≠ [] := by
    intro e; have := hi.mask; rw [e] at this; simp at this
  have hidx := index_lt hi h
  have hfresh := hi.fresh bh.added (by rw [hi.added]; omega) hb
  have htab := hi.table _ hidx
  have hlen := hi.added
  rw [BlockHash.addBlock, if_neg hne, if_neg (by omega), hfresh, htab]
  cases hbk : bucket bh.mask hs (bh.index h) with
  | nil =>
    simp only [List.head?_nil]
    rw [if_pos (by rw [hi.lastLen]; exact hb)]
    refine ⟨_, rfl, ?_, rfl, rfl, rfl⟩
    have hno : ∀ k < hs.length, slot bh.mask hs k ≠ bh.index h := by
      intro k hk e
      have : k ∈ bucket bh.mask hs (bh.index h) := by
        simp [bucket, hk, e]
      rw [hbk] at this; cases this
    refine ⟨by simp [hlen], by show bh.added + 1 ≤ bh.numBlocks; omega, by simpa using hi.mask, hi.nextLen,
      by simpa [numBlocks] using hi.lastLen, ?_, ?_, ?_, ?_⟩
    · intro i hi'
      simp only [List.length_set] at hi'
      simp only
      rw [bucket_append, List.getElem?_set]
      by_cases e : bh.index h = i
      · subst e
        rw [if_pos rfl, if_pos hi', hbk, hlen]
        rw [show (h.toNat &&& bh.mask) = bh.index h from rfl, if_pos rfl]; rfl
      · rw [if_neg e, hi.table i hi', show (h.toNat &&& bh.mask) = bh.index h from rfl, if_neg e,
          List.append_nil]
    · intro k hk
      simp only [List.length_append, List.length_singleton] at hk
      simp only
      rcases Nat.lt_or_ge k hs.length with h' | h'
      · rw [hi.next k h', later_append h', if_neg, List.append_nil]
        exact fun e => hno k h' e.symm
      · have : k = hs.length := by omega
        subst this
        rw [hlen, hfresh, ← hlen, later_append_eq]; rfl
    · intro k hk1 hk2
      simp only [List.length_append, List.length_singleton] at hk1
      exact hi.fresh k (by omega) hk2
    · intro k hk hfirst
      simp only [List.length_append, List.length_singleton] at hk
      simp only at hfirst ⊢
      rw [List.getElem?_set]
      rcases Nat.lt_or_ge k hs.length with h' | h'
      · rw [if_neg (by omega), slot_append_lt h', bucket_append, if_neg (fun e => hno k h' e.symm),
          List.append_nil]
        apply hi.last k h'
        intro j hj
        have := hfirst j hj
        rwa [slot_append_lt (by omega), slot_append_lt h'] at this
      · have : k = hs.length := by omega
        subst this
        rw [if_pos hlen.symm, if_pos (by rw [hi.lastLen]; exact hb), slot_append_eq, bucket_append,
          if_pos rfl, List.getLast?_append, hlen]
        rfl
  | cons f rest =>
    have hf : (bucket bh.mask hs (bh.index h)).head? = some f := by rw [hbk]; rfl
    obtain ⟨hf1, hf2, hf3⟩ := head?_filter_range hf
    simp only [beq_iff_eq, beq_eq_false_iff_ne] at hf2 hf3
    obtain ⟨l, hl⟩ : ∃ l, (bucket bh.mask hs (bh.index h)).getLast? = some l := by
      rw [hbk]; exact ⟨_, List.getLast?_cons⟩
    obtain ⟨hl1, hl2, hl3⟩ := getLast?_filter_range hl
    simp only [beq_iff_eq, beq_eq_false_iff_ne] at hl2 hl3
    have hlast := hi.last f hf1 (by rw [hf2]; exact hf3)
    rw [hf2, hl] at hlast
    have hlnil : later bh.mask hs l = [] := by
      rw [later, List.filter_eq_nil_iff]
      intro j hj
      simp only [List.mem_range] at hj
      simp only [Bool.and_eq_true, decide_eq_true_eq, beq_iff_eq, not_and]
      intro hlj; rw [hl2]; exact hl3 j hlj hj
    have hnext := hi.next l hl1
    rw [hlnil] at hnext
    simp only [List.head?_cons, hlast, hnext, List.head?_nil]
    refine ⟨_, rfl, ?_, rfl, rfl, rfl⟩
    refine ⟨by simp [hlen], by show bh.added + 1 ≤ bh.numBlocks; omega, hi.mask, by simpa [numBlocks] using hi.nextLen,
      by simpa [numBlocks] using hi.lastLen, ?_, ?_, ?_, ?_⟩
    · intro i hi'
      simp only at hi' ⊢
      rw [hi.table i hi', bucket_append]
      by_cases e : (h.toNat &&& bh.mask) = i
      · rw [if_pos e, ← e, show (h.toNat &&& bh.mask) = bh.index h from rfl, hbk]; rfl
      · rw [if_neg e, List.append_nil]
    · intro k hk
      simp only [List.length_append, List.length_singleton] at hk
      simp only
      rw [List.getElem?_set]
      rcases Nat.lt_or_ge k hs.length with h' | h'
      · rw [later_append h']
        by_cases ekl : l = k
        · subst ekl
          rw [if_pos rfl, if_pos (by rw [hi.nextLen]; omega), hlnil,
            if_pos (show (h.toNat &&& bh.mask) = _ from hl2.symm), hlen]; rfl
        · rw [if_neg ekl, hi.next k h']
          by_cases es : (h.toNat &&& bh.mask) = slot bh.mask hs k
          · rw [if_pos es]
            -- `k` is in the bucket and is not the last one
            have hkl : k < l := by
              rcases Nat.lt_trichotomy k l with h | h | h
              · exact h
              · exact absurd h.symm ekl
              · exact absurd es.symm (hl3 k h h')
            have hm : l ∈ later bh.mask hs k := by
              simp only [later, List.mem_filter, List.mem_range, Bool.and_eq_true, decide_eq_true_eq,
                beq_iff_eq]
              exact ⟨hl1, hkl, by rw [hl2, ← es]; rfl⟩
            cases hlt : later bh.mask hs k with
            | nil => rw [hlt] at hm; cases hm
            | cons a as => rfl
          · rw [if_neg es, List.append_nil]
      · have : k = hs.length := by omega
        subst this
        rw [if_neg (by omega), hlen, hfresh, ← hlen, later_append_eq]; rfl
    · intro k hk1 hk2
      simp only [List.length_append, List.length_singleton] at hk1
      simp only
      rw [List.getElem?_set_ne (by omega)]
      exact hi.fresh k (by omega) hk2
    · intro k hk hfirst
      simp only [List.length_append, List.length_singleton] at hk
      simp only at hfirst ⊢
      rw [List.getElem?_set]
      rcases Nat.lt_or_ge k hs.length with h' | h'
      · have hfirst' : ∀ j < k, slot bh.mask hs j ≠ slot bh.mask hs k := by
          intro j hj
          have := hfirst j hj
          rwa [slot_append_lt (by omega), slot_append_lt h'] at this
        rw [slot_append_lt h', bucket_append]
        by_cases ekf : f = k
        · subst ekf
          rw [if_pos rfl, if_pos (by rw [hi.lastLen]; omega), 
            if_pos (show (h.toNat &&& bh.mask) = _ from hf2.symm), List.getLast?_append, hlen]
          rfl
        · have hne' : ¬ (h.toNat &&& bh.mask) = slot bh.mask hs k := by
            intro e
            rcases Nat.lt_trichotomy f k with h2 | h2 | h2
            · exact hfirst' f h2 (by rw [hf2]; exact e)
            · exact ekf h2
            · exact hf3 k h2 e.symm
          rw [if_neg ekf, if_neg hne', List.append_nil]
          exact hi.last k h' hfirst'
      · have : k = hs.length := by omega
        subst this
        exfalso
        exact hfirst f hf1 (by rw [slot_append_lt hf1, slot_append_eq, hf2]; rfl)

/-! ## Chains -/

/-- The numbers below `n` that satisfy `p` and are at least `a`. -/
def from' (p : Nat → Bool) (n a : Nat) : List Nat := (List.range n).filter fun j => decide (a ≤ j) && p j

theorem from'_succ (p : Nat → Bool) (n a : Nat) :
    from' p (n + 1) a = from' p n a ++ (if a ≤ n ∧ p n = true then [n] else []) := by
  rw [from', List.range_succ, List.filter_append, from']
  congr 1
  by_cases h : a ≤ n ∧ p n = true
  · rw [if_pos h, List.filter_cons_of_pos (by simp [h]), List.filter_nil]
  · rw [if_neg h, List.filter_cons_of_neg (by simpa using h), List.filter_nil]

theorem from'_eq_nil (p : Nat → Bool) {n a : Nat} (h : n ≤ a) : from' p n a = [] := by
  rw [from', List.filter_eq_nil_iff]
  intro j hj
  simp only [List.mem_range] at hj
  simp only [Bool.and_eq_true, decide_eq_true_eq, not_and]
  intro; omega

theorem from'_head (p : Nat → Bool) {n a b : Nat} (h : (from' p n a).head? = some b) :
    from' p n a = b :: from' p n (b + 1) := by
  induction n with
  | zero => simp [from'] at h
  | succ n ih =>
    rw [from'_succ] at h ⊢
    cases hl : from' p n a with
    | nil =>
      rw [hl] at h
      by_cases hc : a ≤ n ∧ p n = true
      · rw [if_pos hc] at h ⊢
        simp only [List.nil_append, List.head?_cons, Option.some.injEq] at h
        subst h
        rw [from'_eq_nil p (Nat.le_refl _)]; rfl
      · rw [if_neg hc] at h; simp at h
    | cons c cs =>
      rw [hl] at h
      simp only [List.cons_append, List.head?_cons, Option.some.injEq] at h
      subst h
      have := ih (by rw [hl]; rfl)
      rw [hl] at this
      rw [this, from'_succ, List.cons_append]
      have hc : c ∈ from' p n a := by rw [hl]; exact List.mem_cons_self
      simp only [from', List.mem_filter, List.mem_range, Bool.and_eq_true, decide_eq_true_eq] at hc
      congr 2
      by_cases hp : p n = true
      · rw [if_pos ⟨by omega, hp⟩, if_pos ⟨by omega, hp⟩]
      · rw [if_neg (fun e => hp e.2), if_neg (fun e => hp e.2)]

theorem bucket_eq_from' (mask : Nat) (hs : List UInt32) (i : Nat) :
    bucket mask hs i = from' (fun k => slot mask hs k == i) hs.length 0 := by
  simp [bucket, from']

theorem later_eq_from' (mask : Nat) (hs : List UInt32) (k : Nat) :
    later mask hs k = from' (fun j => slot mask hs j == slot mask hs k) hs.length (k + 1) := by
  simp [later, from', Nat.succ_le_iff]

/-- The chain from any position in a bucket visits the rest of the bucket. -/
theorem Inv.chain_from {bh : BlockHash} {hs : List UInt32} (hi : bh.Inv hs) (i : Nat) :
    ∀ a, Spec.Chain bh.next (from' (fun k => slot bh.mask hs k == i) hs.length a).head?
      (from' (fun k => slot bh.mask hs k == i) hs.length a) := by
  intro a
  induction hn : hs.length - a using Nat.strongRecOn generalizing a with
  | _ n ih =>
    cases hh : (from' (fun k => slot bh.mask hs k == i) hs.length a).head? with
    | none =>
      rw [List.head?_eq_none_iff] at hh
      rw [hh]
      exact .done
    | some b =>
      rw [from'_head _ hh]
      obtain ⟨h1, h2, h3⟩ := head?_filter_range hh
      simp only [Bool.and_eq_true, decide_eq_true_eq, beq_iff_eq] at h2
      refine .step (hi.next b h1) ?_
      have := ih (hs.length - (b + 1)) (by omega) (b + 1) rfl
      rw [later_eq_from', h2.2]
      exact this

theorem Inv.chain {bh : BlockHash} {hs : List UInt32} (hi : bh.Inv hs) {i : Nat} (hlt : i < bh.table.length) :
    ∃ start, bh.table[i]? = some start ∧ Spec.Chain bh.next start (bucket bh.mask hs i) := by
  refine ⟨_, hi.table i hlt, ?_⟩
  have := hi.chain_from i 0
  rwa [← bucket_eq_from'] at this

/-! ## Adding blocks -/

/-- The recorded hash values are those of the blocks of the source. -/
def Honest (bh : BlockHash) (hs : List UInt32) : Prop :=
  ∀ k < hs.length, hs[k]? = some (RollingHash.hash (Spec.block bh.source k))

theorem readBlock_ok {data : Bytes} {k : Nat} (h : k * kBlockSize + kBlockSize ≤ data.length) :
    readBlock data (k * kBlockSize) = .ok (Spec.block data k) := by
  rw [readBlock, if_pos h, Spec.block, Nat.mul_comm]; rfl

theorem Honest.snoc {bh bh' : BlockHash} {hs : List UInt32} (ho : Honest bh hs) (hsrc : bh'.source = bh.source) :
    Honest bh' (hs ++ [RollingHash.hash (Spec.block bh.source hs.length)]) := by
  intro k hk
  simp only [List.length_append, List.length_singleton] at hk
  rw [hsrc]
  rcases Nat.lt_or_ge k hs.length with h | h
  · rw [List.getElem?_append_left h]; exact ho k h
  · have : k = hs.length := by omega
    subst this
    simp

theorem addBlocksLoop_ok (fuel : Nat) : ∀ (bh : BlockHash) (hs : List UInt32) (endLimit : Int),
    bh.Inv hs → Honest bh hs → endLimit ≤ bh.source.length - kBlockSize + 1 → kBlockSize ≤ bh.source.length →
    bh.source.length < bh.added * kBlockSize + fuel →
    ∃ bh' hs', addBlocksLoop endLimit fuel bh (bh.added * kBlockSize) = .ok bh' ∧ bh'.Inv hs' ∧ Honest bh' hs' ∧
      bh'.source = bh.source ∧ bh'.startingOffset = bh.startingOffset ∧ bh.added ≤ bh'.added ∧
      endLimit ≤ bh'.added * kBlockSize ∧
      (bh'.added = bh.added ∨ ((bh'.added : Int) - 1) * kBlockSize < endLimit) := by
  induction fuel with
  | zero =>
    intro bh hs endLimit hi _ _ _ hf
    have := hi.bound
    simp only [numBlocks, kBlockSize] at this hf
    omega
  | succ fuel ih =>
    intro bh hs endLimit hi ho hl hs' hf
    rw [addBlocksLoop]
    by_cases hlt : ((bh.added * kBlockSize : Nat) : Int) < endLimit
    · rw [if_pos hlt]
      have hin : bh.added * kBlockSize + kBlockSize ≤ bh.source.length := by
        simp only [kBlockSize] at *; omega
      have hnb : bh.added < bh.numBlocks := by
        simp only [numBlocks, kBlockSize] at *; omega
      obtain ⟨bh1, h1, hi1, hsrc, hoff, hadd⟩ := hi.addBlock (RollingHash.hash (Spec.block bh.source bh.added)) hnb
      have ho1 := ho.snoc (bh' := bh1) hsrc
      rw [hi.added] at ho1
      have := ih bh1 _ endLimit hi1 ho1 (by rw [hsrc]; exact hl) (by rw [hsrc]; exact hs')
        (by rw [hsrc, hadd]; simp only [kBlockSize] at *; omega)
      obtain ⟨bh2, hs2, h2, hi2, ho2, hsrc2, hoff2, hle2, hend2, hor2⟩ := this
      rw [readBlock_ok hin]
      simp only [bind, Except.bind, h1]
      rw [hadd, Nat.add_mul, Nat.one_mul] at h2
      refine ⟨bh2, hs2, h2, hi2, ho2, hsrc2.trans hsrc, hoff2.trans hoff, by omega, hend2, Or.inr ?_⟩
      rcases hor2 with h | h
      · rw [h, hadd]
        simp only [kBlockSize] at *; omega
      · exact h
    · rw [if_neg hlt]
      exact ⟨bh, hs, rfl, hi, ho, rfl, rfl, Nat.le_refl _, by omega, Or.inl rfl⟩

/-- `AddAllBlocksThroughIndex`, called within its preconditions. -/
theorem addAllBlocks_ok {bh : BlockHash} {hs : List UInt32} {e : Int} (hi : bh.Inv hs) (ho : Honest bh hs)
    (hlen : bh.source.length ≤ int32Max) (he : e ≤ bh.source.length)
    (hgt : ((bh.added : Int) - 1) * kBlockSize < e) :
    ∃ bh' hs', bh.addAllBlocksThroughIndex e = .ok bh' ∧ bh'.Inv hs' ∧ Honest bh' hs' ∧
      bh'.source = bh.source ∧ bh'.startingOffset = bh.startingOffset ∧ bh.added ≤ bh'.added ∧
      ((bh'.added : Int) - 1) * kBlockSize < e ∧
      min e ((bh.source.length : Int) - kBlockSize + 1) ≤ bh'.added * kBlockSize := by
  simp only [int32Max] at hlen
  rw [addAllBlocksThroughIndex, toInt32_of_lt hlen, if_neg (by omega), if_neg (by omega)]
  by_cases hsm : bh.source.length < kBlockSize
  · rw [if_pos hsm]
    have := hi.bound
    simp only [numBlocks, kBlockSize] at *
    exact ⟨bh, hs, rfl, hi, ho, rfl, rfl, Nat.le_refl _, by omega, by omega⟩
  · rw [if_neg hsm]
    simp only
    rw [toInt32_of_lt (by omega)]
    have hl : (if e > ((bh.source.length - kBlockSize : Nat) : Int) then ((bh.source.length - kBlockSize : Nat) : Int) + 1
        else e) ≤ bh.source.length - kBlockSize + 1 := by
      split <;> omega
    obtain ⟨bh', hs', h1, h2, h3, h4, h5, h6, h7, h8⟩ :=
      addBlocksLoop_ok (bh.source.length + 1) bh hs _ hi ho hl (by omega) (by omega)
    refine ⟨bh', hs', h1, h2, h3, h4, h5, h6, ?_, ?_⟩
    · rcases h8 with h | h
      · rw [h]; exact hgt
      · split at h <;> omega
    · split at h7 <;> omega

/-- Creating a block hash. -/
theorem create_ok {source : Bytes} {off : Int} {populate : Bool} (hlen : source.length ≤ int32Max) :
    ∃ bh hs, create source off populate = .ok (some bh) ∧ bh.Inv hs ∧ Honest bh hs ∧
      bh.source = source ∧ bh.startingOffset = off ∧
      bh.added = (if populate then source.length / kBlockSize else 0) := by
  simp only [int32Max] at hlen
  obtain ⟨j, hj1, _, _⟩ := calcTableSize_spec source.length (by simp only [size64]; omega)
  have hpos := Nat.two_pow_pos j
  rw [create]
  simp only [hj1]
  rw [if_neg (by omega)]
  have hi := Inv.initial (source := source) (off := off) (n := 2 ^ j) (mask := (2 ^ j - 1) % 4294967296) (by
    have := Nat.mod_le (2 ^ j - 1) 4294967296; omega)
  cases populate with
  | false =>
    exact ⟨_, [], rfl, hi, (by intro k hk; simp at hk), rfl, rfl, rfl⟩
  | true =>
    simp only [if_true]
    obtain ⟨bh', hs', h1, h2, h3, h4, h5, h6, h7, h8⟩ := addAllBlocks_ok (e := toInt32 source.length) hi
      (by intro k hk; simp at hk) (by simpa [int32Max] using hlen) (by rw [toInt32_of_lt hlen]; simp)
      (by rw [toInt32_of_lt hlen]; simp only [kBlockSize]; omega)
    simp only at h4 h5 h8
    rw [h1]
    refine ⟨bh', hs', rfl, h2, h3, h4, h5, ?_⟩
    rw [toInt32_of_lt hlen] at h8
    have := h2.bound
    simp only [numBlocks, h4, kBlockSize] at *
    omega

/-! ### The mask never changes -/

theorem addBlock_mask {bh bh' : BlockHash} {h : UInt32} (he : bh.addBlock h = .ok bh') : bh'.mask = bh.mask := by
  unfold addBlock at he
  split at he
  · simp at he
  · split at he
    · simp at he
    · split at he
      · split at he
        · cases he; rfl
        · simp at he
      · split at he
        · split at he
          · cases he; rfl
          · simp at he
          · simp at he
        · simp at he
      · simp at he
      · simp at he

theorem addBlocksLoop_mask {l : Int} (fuel : Nat) : ∀ {bh bh' : BlockHash} {pos : Nat},
    addBlocksLoop l fuel bh pos = .ok bh' → bh'.mask = bh.mask := by
  induction fuel with
  | zero => intro bh bh' pos h; simp [addBlocksLoop] at h
  | succ fuel ih =>
    intro bh bh' pos h
    rw [addBlocksLoop] at h
    split at h
    · simp only [bind, Except.bind] at h
      split at h
      · simp at h
      · rename_i b _
        split at h
        · simp at h
        · rename_i b1 h1
          rw [ih h, addBlock_mask h1]
    · cases h; rfl

theorem addAll_mask {bh bh' : BlockHash} {e : Int} (h : bh.addAllBlocksThroughIndex e = .ok bh') : bh'.mask = bh.mask := by
  unfold addAllBlocksThroughIndex at h
  split at h
  · simp at h
  · split at h
    · simp at h
    · split at h
      · cases h; rfl
      · exact addBlocksLoop_mask _ h

theorem create_mask {source : Bytes} {off : Int} {populate : Bool} {bh : BlockHash}
    (h : create source off populate = .ok (some bh)) : bh.mask = (calcTableSize source.length - 1) % 4294967296 := by
  unfold create at h
  dsimp only at h
  split at h
  · simp at h
  · split at h
    · cases hx : addAllBlocksThroughIndex _ (toInt32 source.length) with
      | error f => rw [hx] at h; simp [Except.map] at h
      | ok b =>
        rw [hx] at h
        simp only [Except.map, Except.ok.injEq, Option.some.injEq] at h
        rw [← h, addAll_mask hx]
    · cases h; rfl

/-- Masking is taking the remainder modulo the table size. -/
theorem index_mod {bh : BlockHash} {n : Nat} (hn : n ≤ int32Max) (hm : bh.mask = (calcTableSize n - 1) % 4294967296)
    (h : UInt32) : bh.index h = h.toNat % calcTableSize n := by
  simp only [int32Max] at hn
  obtain ⟨j, hj1, hj2, hj3⟩ := calcTableSize_spec n (by simp only [size64]; omega)
  have hpos := Nat.two_pow_pos j
  have hlt : 2 ^ j < 4294967296 := by
    rcases hj3 with h | h
    · omega
    · rw [h]; decide
  rw [index, hm, hj1, Nat.mod_eq_of_lt (by omega), Nat.and_two_pow_sub_one_eq_mod]

end BlockHash
end Vcd
