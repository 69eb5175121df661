import Verif.Proof.BlockMatch

/-!
# C27, C36, C37: the block hash
-/

namespace Vcd.Props
open Vcd Vcd.Spec

/-! ## C36 -/

/-- C36. For every size that fits a `size_t`, the hash table size is a power of two, no less than one
bucket for every four bytes, and (but for the one-bucket table) less than twice that. -/
theorem table_size_power_of_two (n : Nat) (h : n < 2 ^ 64) :
    ∃ j, calcTableSize n = 2 ^ j ∧ n / 4 + 1 ≤ 2 ^ j ∧ (2 ^ j < 2 * (n / 4 + 1) ∨ j = 0) :=
  calcTableSize_spec n h

example : calcTableSize 4097 = 2048 ∧ calcTableSize 0 = 1 ∧ calcTableSize 4095 = 1024 := by decide +kernel

/-- C36. Creating a block hash for any data of up to `2^31 - 1` bytes succeeds; every hash value then
masks to a bucket of its table. -/
theorem block_hash_creation (source : Bytes) (offset : Int) (populate : Bool) (h : source.length < 2 ^ 31) :
    ∃ bh, BlockHash.create source offset populate = .ok (some bh) ∧
      ∀ hashValue : UInt32, bh.index hashValue < bh.table.length := by
  obtain ⟨bh, hs, h1, h2, _⟩ := BlockHash.create_ok (off := offset) (populate := populate)
    (show source.length ≤ int32Max by simp only [int32Max]; omega)
  exact ⟨bh, h1, fun v => BlockHash.index_lt h2 v⟩

/-! ## C37 -/

/-- C37. After any sequence of additions to a new block hash, the chain that starts in the bucket of a
hash value visits exactly the blocks added so far whose own hash value falls into that bucket, each
once, in increasing order, and ends. -/
theorem chains_record_added_blocks (source : Bytes) (offset : Int) (populate : Bool) (ops : List AddOp)
    (bh₀ bh : BlockHash) (hlen : source.length < 2 ^ 31)
    (h₀ : BlockHash.create source offset populate = .ok (some bh₀))
    (honest : ∀ o ∈ ops, o.Honest source) (h : AddOp.runAll bh₀ ops = .ok bh) (hashValue : UInt32) :
    ∃ start, bh.table[bh.index hashValue]? = some start ∧
      Chain bh.next start ((List.range bh.added).filter fun k =>
        bh.index (RollingHash.hash (block source k)) == bh.index hashValue) := by
  have hl : source.length ≤ int32Max := by simp only [int32Max]; omega
  obtain ⟨bh1, hs, h1, h2, h3, h4, _⟩ := BlockHash.create_ok (off := offset) (populate := populate) hl
  rw [h₀] at h1
  cases h1
  obtain ⟨hs', h5, h6, h7, _⟩ := addOps_inv h2 h3 (by rw [h4]; exact hl) (by rw [h4]; exact honest) h
  obtain ⟨start, h8, h9⟩ := h5.chain (BlockHash.index_lt h5 hashValue)
  refine ⟨start, h8, ?_⟩
  rw [bucket_eq h5 h6, h7, h4] at h9
  exact h9

/-- C37. Which blocks have been added: all complete ones when the dictionary is hashed. -/
theorem dictionary_hash_complete (source : Bytes) (h : source.length < 2 ^ 31) :
    ∃ bh, BlockHash.create source 0 true = .ok (some bh) ∧ bh.added = source.length / 16 := by
  obtain ⟨bh, hs, h1, _, _, _, _, h6⟩ := BlockHash.create_ok (source := source) (off := 0) (populate := true)
    (by simp only [int32Max]; omega)
  exact ⟨bh, h1, by simpa [kBlockSize] using h6⟩

/-- C37. Adding through an index within the data that has not been passed yet succeeds and adds exactly the
blocks that begin before it and are complete. -/
theorem add_through_index (source : Bytes) (offset : Int) (ops : List AddOp) (bh₀ bh : BlockHash) (e : Nat)
    (hlen : source.length < 2 ^ 31) (h₀ : BlockHash.create source offset false = .ok (some bh₀))
    (honest : ∀ o ∈ ops, o.Honest source) (h : AddOp.runAll bh₀ ops = .ok bh)
    (he : e ≤ source.length) (hnew : bh.added * 16 < e + 16) :
    ∃ bh', bh.addAllBlocksThroughIndex e = .ok bh' ∧
      ∀ k, k < bh'.added ↔ k < bh.added ∨ (16 * k < e ∧ 16 * k + 16 ≤ source.length) := by
  have hl : source.length ≤ int32Max := by simp only [int32Max]; omega
  obtain ⟨bh1, hs, h1, h2, h3, h4, _⟩ := BlockHash.create_ok (off := offset) (populate := false) hl
  rw [h₀] at h1
  cases h1
  obtain ⟨hs', h5, h6, h7, _⟩ := addOps_inv h2 h3 (by rw [h4]; exact hl) (by rw [h4]; exact honest) h
  rw [h4] at h7
  obtain ⟨bh', hs2, g1, g2, _, g4, _, g6, g7, g8⟩ := BlockHash.addAllBlocks_ok (e := (e : Int)) h5 h6
    (by rw [h7]; exact hl) (by rw [h7]; omega) (by simp only [kBlockSize]; omega)
  refine ⟨bh', g1, fun k => ?_⟩
  have hb := g2.bound
  simp only [BlockHash.numBlocks, kBlockSize, g4, h7] at *
  omega

-- 40 bytes, all equal: both blocks are in one bucket, in order
example : ∃ bh, BlockHash.create (List.replicate 40 7) 0 true = .ok (some bh) ∧
    Chain bh.next (some 0) [0, 1] ∧ bh.added = 2 := by
  refine ⟨_, rfl, ?_, by decide +kernel⟩
  refine .step (n := some 1) (by decide +kernel) (.step (n := none) (by decide +kernel) .done)

/-! ## C27 -/

/-- C27. Blocks are compared exactly: two blocks of 16 bytes match if and only if they are equal, and whether the library was
built to compare them as machine words makes no difference. -/
theorem block_comparison_exact (useWords : Bool) (block1 block2 : Bytes) (h1 : block1.length = 16) (h2 : block2.length = 16) :
    BlockHash.blockContentsMatch useWords block1 block2 = true ↔ block1 = block2 :=
  BlockHash.blockContentsMatch_iff useWords h1 h2

-- blocks that differ only in the last byte, or only in the last byte of the first word
example : ∀ w, BlockHash.blockContentsMatch w (List.replicate 16 7) (List.replicate 15 7 ++ [8]) = false ∧
    BlockHash.blockContentsMatch w (List.replicate 16 7) (List.replicate 7 7 ++ [8] ++ List.replicate 8 7) = false ∧
    BlockHash.blockContentsMatch w (List.replicate 16 7) (List.replicate 16 7) = true := by decide

/-- C27. Whatever has been added and whatever the hash value, a search in a block hash for the block at
`candidate` of the target reads nothing outside the data, and either finds nothing better than what was
known before or reports a match: equal ranges inside both, covering the candidate block (so that it
neither begins before the data searched nor ends after it), as long as possible in both directions, and
around a block of the source that has been added. The offset reported is that of the range in the
source plus the source's own address. -/
theorem search_finds_true_matches (source : Bytes) (offset : Nat) (populate : Bool) (ops : List AddOp)
    (bh₀ bh : BlockHash) (target : Bytes) (candidate : Nat) (hashValue : UInt32) (known : Match)
    (hsrc : source.length + offset < 2 ^ 31) (htgt : target.length < 2 ^ 31)
    (h₀ : BlockHash.create source offset populate = .ok (some bh₀))
    (honest : ∀ o ∈ ops, o.Honest source) (h : AddOp.runAll bh₀ ops = .ok bh)
    (hc : candidate + 16 ≤ target.length) :
    ∃ m, bh.findBestMatch hashValue target candidate known = .ok m ∧
      (m = known ∨
        ∃ s t size k : Nat, m = ⟨size, ((s + offset : Nat) : Int), (t : Int)⟩ ∧ known.size < size ∧
          Matches source target candidate s t size ∧ Maximal source target s t size ∧
          k < bh.added ∧ 16 * k + t = s + candidate) := by
  have hl : source.length ≤ int32Max := by simp only [int32Max]; omega
  obtain ⟨bh1, hs, h1, h2, h3, h4, h5, _⟩ := BlockHash.create_ok (off := (offset : Int)) (populate := populate) hl
  rw [h₀] at h1
  cases h1
  obtain ⟨hs', g5, _, g7, g8⟩ := addOps_inv h2 h3 (by rw [h4]; exact hl) (by rw [h4]; exact honest) h
  have hoff := g8.trans h5
  have hs1 := g7.trans h4
  obtain ⟨m, hm, _, hor, _⟩ := BlockHash.findBestMatch_spec g5 hoff (by rw [hs1]; simp only [int32Max]; omega)
    (by simp only [int32Max]; omega) hc hashValue known
  refine ⟨m, hm, ?_⟩
  rcases hor with h | ⟨n, s, t, size, k1, k2, k3, k4⟩
  · exact Or.inl h
  · rw [hs1] at k2
    have ha := k2.aligned
    have hst := k2.isMatch.start
    exact Or.inr ⟨s, t, size, n, k4, k3, k2.isMatch, k2.maximal, k1, by simp only [kBlockSize] at ha; omega⟩

/-- C42. When the candidate's own hash value is given and no more than 17 of the added blocks fall into its
bucket, the search misses nothing: no range of equal bytes around the candidate block and an added block
is longer than the match reported. -/
theorem search_finds_longest (source : Bytes) (offset : Nat) (populate : Bool) (ops : List AddOp)
    (bh₀ bh : BlockHash) (target : Bytes) (candidate : Nat) (known : Match)
    (hsrc : source.length + offset < 2 ^ 31) (htgt : target.length < 2 ^ 31)
    (h₀ : BlockHash.create source offset populate = .ok (some bh₀))
    (honest : ∀ o ∈ ops, o.Honest source) (h : AddOp.runAll bh₀ ops = .ok bh)
    (hc : candidate + 16 ≤ target.length)
    (few : ((List.range bh.added).filter fun k => bh.index (RollingHash.hash (block source k)) ==
      bh.index (RollingHash.hash ((target.drop candidate).take 16))).length ≤ 17) :
    ∃ m, bh.findBestMatch (RollingHash.hash ((target.drop candidate).take 16)) target candidate known = .ok m ∧
      known.size ≤ m.size ∧
      ∀ s t size k, k < bh.added → 16 * k + t = s + candidate → Matches source target candidate s t size →
        size ≤ m.size := by
  have hl : source.length ≤ int32Max := by simp only [int32Max]; omega
  obtain ⟨bh1, hs, h1, h2, h3, h4, h5, _⟩ := BlockHash.create_ok (off := (offset : Int)) (populate := populate) hl
  rw [h₀] at h1
  cases h1
  obtain ⟨hs', g5, g6, g7, g8⟩ := addOps_inv h2 h3 (by rw [h4]; exact hl) (by rw [h4]; exact honest) h
  have hs1 := g7.trans h4
  obtain ⟨m, hm, hle, _, _, hfew⟩ := BlockHash.findBestMatch_spec g5 (g8.trans h5)
    (by rw [hs1]; simp only [int32Max]; omega) (by simp only [int32Max]; omega) hc
    (RollingHash.hash ((target.drop candidate).take 16)) known
  refine ⟨m, hm, hle, ?_⟩
  intro s t size k hk hal hmat
  rw [bucket_eq g5 g6, hs1] at hfew
  obtain ⟨s', t', size', hext, hsz⟩ := BlockHash.extension_of_matches (n := k) hmat
    (by have := hmat.start; simp only [kBlockSize]; omega)
  refine Nat.le_trans hsz (hfew few k ?_ s' t' size' hext)
  rw [List.mem_filter, List.mem_range]
  refine ⟨hk, ?_⟩
  rw [hext.block_eq]
  simp [kBlockSize]

/-- C42. Without that condition: the first of the blocks in the bucket that is equal to the candidate, if no
more than 16 blocks come before it there, is always taken into account. -/
theorem search_finds_first (source : Bytes) (offset : Nat) (populate : Bool) (ops : List AddOp)
    (bh₀ bh : BlockHash) (target : Bytes) (candidate : Nat) (known : Match) (pre post : List Nat) (k : Nat)
    (hsrc : source.length + offset < 2 ^ 31) (htgt : target.length < 2 ^ 31)
    (h₀ : BlockHash.create source offset populate = .ok (some bh₀))
    (honest : ∀ o ∈ ops, o.Honest source) (h : AddOp.runAll bh₀ ops = .ok bh)
    (hc : candidate + 16 ≤ target.length)
    (hbucket : ((List.range bh.added).filter fun k => bh.index (RollingHash.hash (block source k)) ==
      bh.index (RollingHash.hash ((target.drop candidate).take 16))) = pre ++ k :: post)
    (hpre : pre.length ≤ 16) (hfirst : ∀ j ∈ pre, block source j ≠ (target.drop candidate).take 16) :
    ∃ m, bh.findBestMatch (RollingHash.hash ((target.drop candidate).take 16)) target candidate known = .ok m ∧
      ∀ s t size, 16 * k + t = s + candidate → Matches source target candidate s t size → size ≤ m.size := by
  have hl : source.length ≤ int32Max := by simp only [int32Max]; omega
  obtain ⟨bh1, hs, h1, h2, h3, h4, h5, _⟩ := BlockHash.create_ok (off := (offset : Int)) (populate := populate) hl
  rw [h₀] at h1
  cases h1
  obtain ⟨hs', g5, g6, g7, g8⟩ := addOps_inv h2 h3 (by rw [h4]; exact hl) (by rw [h4]; exact honest) h
  have hs1 := g7.trans h4
  obtain ⟨m, hm, hle, _, hf, _⟩ := BlockHash.findBestMatch_spec g5 (g8.trans h5)
    (by rw [hs1]; simp only [int32Max]; omega) (by simp only [int32Max]; omega) hc
    (RollingHash.hash ((target.drop candidate).take 16)) known
  refine ⟨m, hm, ?_⟩
  intro s t size hal hmat
  rw [bucket_eq g5 g6, hs1] at hf
  obtain ⟨s', t', size', hext, hsz⟩ := BlockHash.extension_of_matches (n := k) hmat
    (by have := hmat.start; simp only [kBlockSize]; omega)
  exact Nat.le_trans hsz (hf pre k post hbucket hpre hfirst hext.block_eq s' t' size' hext)

-- a dictionary whose bytes 5 to 38 are the whole target: the block at 16 is found and extended both ways
example : ∃ bh m, BlockHash.create ((List.range 44).map fun i => UInt8.ofNat (i * i)) 0 true = .ok (some bh) ∧
    bh.findBestMatch (RollingHash.hash (((List.range 34).map fun i => UInt8.ofNat ((i + 5) * (i + 5))).drop 11 |>.take 16))
      ((List.range 34).map fun i => UInt8.ofNat ((i + 5) * (i + 5))) 11 {} = .ok m ∧ m = ⟨34, 5, 0⟩ := by
  refine ⟨_, _, rfl, rfl, ?_⟩
  decide +kernel

end Vcd.Props
