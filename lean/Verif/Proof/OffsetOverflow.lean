import Verif.Proof.Release
import Verif.Proof.Encoder
import Verif.Proof.ReleaseAny

/-!
# A search that finds nothing in the dictionary, and an offset that overflows: lemmas for C68
-/

namespace Vcd
open Spec

namespace Engine

/-- In a dictionary of zeros only a block of zeros is found. -/
theorem search_zeros {n : Nat} (hn : n ≤ int32Max) {hashed : BlockHash} (hd : DictHash (List.replicate n 0) hashed) {target : Bytes}
    (ht : target.length ≤ int32Max) {candidate : Nat} (hc : candidate + kBlockSize ≤ target.length)
    (hz : (target.drop candidate).take kBlockSize ≠ List.replicate kBlockSize 0) (h : UInt32) (best : Match) :
    hashed.findBestMatch h target candidate best = .ok best := by
  obtain ⟨hs, hi, _⟩ := hd.inv
  obtain ⟨r, h1, _, h3, _⟩ := BlockHash.findBestMatch_spec hi hd.offset (by rw [hd.source, List.length_replicate]; omega) ht hc h best
  rw [h1]
  rcases h3 with rfl | ⟨k, s, t, size, h4, h5, _, _⟩
  · rfl
  · exfalso
    apply hz
    rw [← h5.block_eq, hd.source]
    have hk : k < n / kBlockSize := by have := hd.full; rw [List.length_replicate] at this; omega
    simp only [block, List.drop_replicate, List.take_replicate, kBlockSize] at hk ⊢
    congr 1
    omega

/-- A hash table with nothing in it. -/
def noBlocks : BlockHash := { source := [], startingOffset := 0, table := [none], mask := 0, next := [], last := [], added := 0 }

theorem search_nothing {target : Bytes} {candidate : Nat} (hc : candidate + kBlockSize ≤ target.length) (h : UInt32) (best : Match) :
    noBlocks.findBestMatch h target candidate best = .ok best := by
  simp only [BlockHash.findBestMatch, readBlock, if_pos hc, bind, Except.bind, BlockHash.firstMatchingBlock, BlockHash.index, noBlocks,
    Nat.and_zero, List.getElem?_cons_zero, BlockHash.skipNonMatching]
  simp [BlockHash.bestMatchLoop]

/-- If nothing is found in the dictionary, it does not matter which it is. -/
theorem encodeLoop_nothing {hashed : BlockHash} {target : Bytes} (h16 : kBlockSize ≤ target.length)
    (hf : ∀ ne c h, ne ≤ c → c + kBlockSize ≤ target.length →
      hashed.findBestMatch h (target.drop ne) (c - ne) {} = .ok {}) :
    ∀ (fuel ne c : Nat) (h : UInt32) (th : Option BlockHash) (calls : List CoderCall), ne ≤ c → c + kBlockSize ≤ target.length →
      encodeLoop hashed target fuel ne c h th calls = encodeLoop noBlocks target fuel ne c h th calls
  | 0, _, _, _, _, _, _, _ => rfl
  | fuel + 1, ne, c, h, th, calls, h1, h2 => by
    have hb : bestMatch hashed th h (target.drop ne) (c - ne) = bestMatch noBlocks th h (target.drop ne) (c - ne) := by
      unfold bestMatch
      rw [hf ne c h h1 h2, search_nothing (by rw [List.length_drop]; omega)]
    have hcopy : encodeCopyForBestMatch hashed th h (target.drop ne) (c - ne) =
        encodeCopyForBestMatch noBlocks th h (target.drop ne) (c - ne) := by
      unfold encodeCopyForBestMatch
      rw [hb]
    unfold encodeLoop
    rw [hcopy]
    cases encodeCopyForBestMatch noBlocks th h (target.drop ne) (c - ne) with
    | error f => rfl
    | ok p =>
      obtain ⟨n, made⟩ := p
      simp only [bind, Except.bind]
      split
      · split
        · rfl
        · rename_i hle
          cases readBlock target (ne + n) with
          | error f => rfl
          | ok block =>
            simp only
            cases updateTargetHash th (·.addAllBlocksThroughIndex (toInt32 (ne + n))) with
            | error f => rfl
            | ok th' => exact encodeLoop_nothing h16 hf fuel _ _ _ _ _ (Nat.le_refl _) (by omega)
      · split
        · rfl
        · rename_i hle
          cases updateTargetHash th (·.addOneIndexHash c h) with
          | error f => rfl
          | ok th' =>
            simp only
            split
            · exact encodeLoop_nothing h16 hf fuel _ _ _ _ _ (by omega) (by omega)
            · rfl

end Engine

/-- A target with the same 16 bytes at 16 and at 32. -/
def twiceTarget : Bytes := List.replicate 16 1 ++ List.replicate 16 2 ++ List.replicate 16 2

/-- Its hash table at the beginning, for a dictionary of 2^31 - 1 bytes. -/
def twiceHash : BlockHash :=
  { source := twiceTarget, startingOffset := 2147483647, table := List.replicate 16 none, mask := 15,
    next := List.replicate 3 none, last := List.replicate 3 none, added := 0 }

theorem twiceHash_eq : BlockHash.create twiceTarget 2147483647 false = .ok (some twiceHash) := by
  have : calcTableSize twiceTarget.length = 16 := by decide +kernel
  unfold BlockHash.create
  rw [this]
  rfl

def overflows {α : Type} : Except Fault α → Bool
  | .error .intOverflow => true
  | _ => false

theorem overflows_eq {α : Type} {x : Except Fault α} (h : overflows x = true) : x = .error .intOverflow := by
  unfold overflows at h
  split at h
  · rfl
  · cases h

theorem twice_loop : Engine.encodeLoop Engine.noBlocks twiceTarget 49 0 0 (RollingHash.hash (twiceTarget.take 16)) (some twiceHash) [] =
    .error .intOverflow :=
  overflows_eq (by decide +kernel)

theorem twice_blocks : ∀ c, c < 33 → (twiceTarget.drop c).take 16 ≠ List.replicate 16 0 := by decide +kernel

/-- The engine adds the offset 16 to the size of the dictionary. -/
theorem Engine.encode_overflows {e : Engine} (he : Engine.init (List.replicate (2 ^ 31 - 1) 0) = .ok (some e)) :
    e.encode true twiceTarget = .error .intOverflow := by
  obtain ⟨e', hashed, h1, h2, h3⟩ := Engine.init_ok (dict := List.replicate (2 ^ 31 - 1) 0)
    (by rw [List.length_replicate]; decide)
  rw [he] at h1
  cases h1
  subst h2
  have hlen : twiceTarget.length = 48 := by decide
  have hk : kBlockSize = 16 := rfl
  have hoff : toInt32 (List.replicate (2 ^ 31 - 1) (0 : UInt8)).length = 2147483647 := by
    rw [List.length_replicate]; decide
  unfold Engine.encode Engine.createTargetHash
  simp only [hlen, hk, hoff, twiceHash_eq, if_true]
  rw [if_neg (by decide), if_neg (by decide)]
  simp only [bind, Except.bind]
  have hb : readBlock twiceTarget 0 = .ok (twiceTarget.take 16) := by
    simp [readBlock, hlen, kBlockSize]
  rw [hb]
  simp only
  rw [Engine.encodeLoop_nothing (by rw [hlen]; decide) _ _ _ _ _ _ _ (Nat.le_refl _) (by rw [hlen]; decide), twice_loop]
  intro ne c h hne hc
  rw [hlen, hk] at hc
  refine Engine.search_zeros (n := 2 ^ 31 - 1) (by decide) h3 ?_ ?_ ?_ h {}
  · rw [List.length_drop, hlen]; simp only [int32Max]; omega
  · rw [List.length_drop, hlen, hk]; omega
  · rw [List.drop_drop, show ne + (c - ne) = c by omega]
    exact twice_blocks c (by omega)

/-- What the encoder does when the engine's `Encode` overflows. -/
theorem Encoder.overflow_calls {D : Bytes} {engine : Engine} {chunk : Bytes} {flags : Nat} (hb : flags &&& 4 = 0) (he : Engine.init D = .ok (some engine))
    (hover : engine.encode true chunk = .error .intOverflow) :
    (Encoder.newPair D flags true).pairCalls [.init, .encoder .start, .encoder (.chunk chunk)] =
        ([⟨true, []⟩, ⟨true, Writer.header flags⟩], some .intOverflow) ∧
      Release.pairCalls (Encoder.newPair D flags true) [.init, .encoder .start, .encoder (.chunk chunk)] =
        ([⟨true, []⟩, ⟨true, Writer.header flags⟩], some .intOverflow) := by
  obtain ⟨m, u⟩ := Encoder.usable
  obtain ⟨i1, _, i3⟩ := Engine.initCall_first he
  have p1 : (Encoder.newPair D flags true).pairCall .init = .ok (⟨true, []⟩, Encoder.new engine flags true) := by
    simp only [Encoder.pairCall, Encoder.newPair, Encoder.new, i1]
  obtain ⟨e', p2, p3, p4⟩ := Encoder.start_ok u (e0 := Encoder.new engine flags true) (e := Encoder.new engine flags true)
    ⟨rfl, rfl, rfl, Writer.new (flags &&& 1 != 0), by simp [Encoder.new, createWriter, hb], rfl, fun _ => rfl, Or.inl ⟨rfl, rfl⟩⟩
  have p5 : e'.call (.chunk chunk) = .error .intOverflow := by
    obtain ⟨h1, h2, h3, w, h4, _⟩ := p3
    have h1 : e'.engine = engine := h1
    have h3 : e'.lookForTargetMatches = true := h3
    simp [Encoder.call, Encoder.chunk, p4, h4, h1, h3, hover, Except.map]
  have p2 : (Encoder.new engine flags true).call .start = .ok (⟨true, Writer.header flags⟩, e') := p2
  refine ⟨?_, ?_⟩
  · simp only [Encoder.pairCalls, p1]
    simp only [Encoder.pairCall, p2, p5]
  · have q1 : Release.pairCall (Encoder.newPair D flags true) .init = .ok (⟨true, []⟩, Encoder.new engine flags true) :=
      Release.ok_of_agrees (Release.pairCall_agrees _ _) p1
    have q3 : Release.pairCall e' (.encoder (.chunk chunk)) = .error .intOverflow := by
      rcases Release.pairCall_agrees e' (.encoder (.chunk chunk)) with h | h
      · simp only [Encoder.pairCall, p5] at h; cases h
      · rw [h]; exact p5
    simp only [Release.pairCalls, q1, Release.call_ok p2, q3]

end Vcd
