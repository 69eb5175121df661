import Verif.Proof.Work
import Verif.Props.BlockHash

/-!
# C61: encoding takes a time proportional to the size of the data
-/

namespace Vcd.Props
open Vcd Vcd.Spec

/-- The counting functions of `Model.Work` compute what the engine computes. -/
theorem work_counts_engine (dict chunk : Bytes) (e : Engine) (matching : Bool) :
    (Engine.initW dict).map Prod.fst = Engine.init dict ∧
    (e.encodeW matching chunk).map Prod.fst = e.encode matching chunk :=
  ⟨Engine.initW_val dict, Engine.encodeW_val e matching chunk⟩

/-- C61. For every dictionary of less than 2^31 bytes, `HashedDictionary::Init` hashes and enters each block of 16
bytes once, and compares nothing. Its table of buckets has at most half as many places as the dictionary has bytes, and
two; its chains have one place for each block. -/
theorem hashing_dictionary_is_linear (dict : Bytes) (hlen : dict.length < 2 ^ 31) :
    ∃ hashed w, Engine.initW dict = .ok (some ⟨dict, some hashed⟩, w) ∧
      w.adds = dict.length / 16 ∧ w.hashes ≤ dict.length / 16 ∧ w.blocks = 0 ∧ w.bytes = 0 ∧ w.searches = 0 ∧
      hashed.table.length ≤ dict.length / 2 + 2 ∧ hashed.next.length = dict.length / 16 ∧
      hashed.last.length = dict.length / 16 := by
  obtain ⟨e, hashed, h1, rfl, hd⟩ := Engine.init_ok (dict := dict) (by simp only [int32Max]; omega)
  have h2 := Engine.initW_val dict
  rw [h1] at h2
  rcases hi : Engine.initW dict with f | ⟨e, w⟩
  · rw [hi] at h2; cases h2
  rw [hi] at h2
  have he : e = some ⟨dict, some hashed⟩ := Except.ok.inj h2
  subst he
  have hi' := hi
  unfold Engine.initW at hi'
  obtain ⟨bh, h3, h4⟩ := Counted.map_ok (f := fun o => Option.map (fun bh => (⟨dict, some bh⟩ : Engine)) o) hi'
  cases bh with
  | none => cases h4
  | some bh =>
    simp only [Option.map, Option.some.injEq, Engine.mk.injEq, true_and] at h4
    subst h4
    obtain ⟨g1, _, g2, g3, g4⟩ := BlockHash.createW_work h3
    simp only [BlockHash.room, Prod.mk.injEq] at g4
    have hk : kBlockSize = 16 := rfl
    have := hd.full
    obtain ⟨j, j1, j2, j3⟩ := calcTableSize_spec dict.length (by simp only [size64]; omega)
    simp only [Work.Le, hk] at g1 g4 this
    refine ⟨hashed, w, rfl, by omega, by omega, by omega, by omega, by omega, ?_, by omega, by omega⟩
    rw [g4.1, j1]
    rcases j3 with j3 | rfl <;> omega

/-- C61. For every dictionary and every chunk (of less than 2^31 bytes together), `EncodeChunk` looks for a match at most
once for each byte of the chunk, compares at most 1105 blocks and 2048 pairs of bytes for each byte of the chunk (twice
as many with target matching), computes at most two hash values for each byte, enters each block of the chunk at most
once, and calls the writer once for each 16 bytes at most, and twice more (with what remains, and `Output`). None of
this depends on the dictionary, its size, or what the data are. -/
theorem encoding_is_linear (dict chunk : Bytes) (matching : Bool) (hlen : dict.length + chunk.length < 2 ^ 31) :
    ∃ e calls w, Engine.init dict = .ok (some e) ∧ e.encode matching chunk = .ok calls ∧
      e.encodeW matching chunk = .ok (calls, w) ∧
      w.searches ≤ chunk.length ∧
      w.blocks ≤ (if matching then 2 else 1) * 1105 * chunk.length ∧
      w.bytes ≤ (if matching then 2 else 1) * 2048 * chunk.length ∧
      w.hashes ≤ 2 * chunk.length ∧
      w.adds ≤ (if matching then chunk.length / 16 else 0) ∧
      calls.length ≤ chunk.length / 16 + 2 := by
  obtain ⟨e, hashed, h1, rfl, hd⟩ := Engine.init_ok (dict := dict) (by simp only [int32Max]; omega)
  obtain ⟨calls, h2⟩ : ∃ calls, Engine.encode ⟨dict, some hashed⟩ matching chunk = .ok calls := by
    by_cases hne : chunk = []
    · subst hne; exact ⟨[], rfl⟩
    · obtain ⟨ops, q, h, _⟩ := Engine.encode_spec (matching := matching) hd (by simp only [int32Max]; omega) hne
      exact ⟨_, h⟩
  have hv := Engine.encodeW_val ⟨dict, some hashed⟩ matching chunk
  rw [h2] at hv
  rcases hw : Engine.encodeW ⟨dict, some hashed⟩ matching chunk with f | ⟨cs, w⟩
  · rw [hw] at hv; cases hv
  rw [hw] at hv
  have he : cs = calls := Except.ok.inj hv
  subst he
  refine ⟨_, cs, w, h1, h2, hw, ?_⟩
  simp only [Engine.encodeW] at hw
  split at hw
  · obtain ⟨rfl, rfl⟩ := Counted.ok_inj hw
    simp
  split at hw
  · obtain ⟨rfl, rfl⟩ := Counted.ok_inj hw
    simp only [Nat.zero_le, true_and, Engine.addUnmatchedRemainder]
    split <;> simp
  rename_i hz hk
  have hk16 : kBlockSize = 16 := rfl
  obtain ⟨th, w1, w2, k1, k2, rfl⟩ := Counted.andThen_ok hw
  obtain ⟨block, w3, w4, k3, k4, rfl⟩ := Counted.andThen_ok k2
  obtain ⟨w5, k5, rfl⟩ := Counted.after_ok k3
  obtain ⟨_, rfl⟩ := Counted.free_ok k5
  obtain ⟨r, w6, w7, k6, k7, rfl⟩ := Counted.andThen_ok k4
  obtain ⟨rfl, rfl⟩ := Counted.ok_inj k7
  have hth : w1 = {} ∧ (∀ bh, th = some bh → bh.source = chunk) ∧ Engine.entered th = 0 ∧
      Engine.tables th = (if matching then 2 else 1) ∧ (matching = false → th = none) := by
    simp only [Engine.createTargetHashW] at k1
    cases matching with
    | false =>
      obtain ⟨rfl, rfl⟩ := Counted.ok_inj k1
      exact ⟨rfl, by simp, rfl, rfl, fun _ => rfl⟩
    | true =>
      simp only [if_true] at k1
      split at k1
      · cases k1
      · cases k1
      · rename_i bh w' hc
        obtain ⟨rfl, rfl⟩ := Counted.ok_inj k1
        obtain ⟨_, q2, q3, q4, _⟩ := BlockHash.createW_work hc
        have q2 := q2 rfl
        subst q2
        refine ⟨rfl, ?_, ?_, rfl, by simp⟩
        · intro b hb; cases hb; exact q4
        · simp only [Engine.entered, Option.map, Option.getD]; exact q3
  obtain ⟨rfl, t1, t2, t3, t4⟩ := hth
  have hc : Engine.tables th = 1 ∨ Engine.tables th = 2 := by rw [t3]; cases matching <;> simp
  obtain ⟨g1, g2, g3, g4, g5, g6, g7, g8⟩ := Engine.encodeLoopW_work hc _ k6 rfl (Nat.le_refl _) (by omega) t1 (by rw [t2]; exact Nat.zero_le _)
  have hrem : (Engine.addUnmatchedRemainder (chunk.drop r.1)).length ≤ 1 := by
    rw [Engine.addUnmatchedRemainder]; split <;> simp
  simp only [Work.add_def, List.length_append, List.length_cons, List.length_nil] at g8 ⊢
  rw [t3] at g4 g5
  rw [hk16] at g7
  have hadds : matching = false → w6.adds = 0 := by
    intro hm
    have := t4 hm
    subst this
    exact Engine.encodeLoopW_none _ k6
  cases matching with
  | false =>
    have := hadds rfl
    simp only [Bool.false_eq_true, if_false] at g4 g5 ⊢
    omega
  | true =>
    simp only [if_true] at g4 g5 ⊢
    omega

/-- A dictionary of three blocks, two of them alike. -/
private def sample : Bytes := (List.replicate 32 97 ++ (List.range 16).map UInt8.ofNat : List UInt8)

/-- What it costs to hash it: three blocks are entered, three values computed. -/
example : ((Engine.initW sample).toOption.map (fun r => r.2)) = some { hashes := 3, adds := 3 } := by decide +kernel

/-- What it costs to encode a chunk of 40 bytes against it: 20 `a` bytes, then the last block of the dictionary and four
others. -/
private def cost (matching : Bool) : Option (Nat × Work) :=
  match Engine.initW sample with
  | .ok (some e, _) =>
    (e.encodeW matching (List.replicate 20 97 ++ (List.range 16).map UInt8.ofNat ++ [9, 9, 9, 9])).toOption.map
      fun r => (r.1.length, r.2)
  | _ => none

example : cost false = some (3, { searches := 5, blocks := 10, bytes := 45, hashes := 5 }) := by decide +kernel
example : cost true = some (3, { searches := 5, blocks := 14, bytes := 55, hashes := 5, adds := 1 }) := by decide +kernel

end Vcd.Props
