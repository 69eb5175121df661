import Verif.Proof.EngineGreedy

/-!
# C28, C41, C45: the differencing engine
-/

namespace Vcd.Props
open Vcd Vcd.Spec

/-- C28. For every dictionary and every chunk that is not empty (of less than 2^31 bytes together), with
target matching on or off: the engine can be initialised, it emits a list of instructions followed by one
call of `Output`, and executing them on the dictionary appends exactly the chunk. Each ADD is non-empty,
each COPY has at least 32 bytes and starts below its own position; it lies inside the dictionary or, with
matching on, starts in the target (it never extends from one into the other); and an ADD is only ever
followed by a COPY. -/
theorem engine_reconstructs_target (dict chunk : Bytes) (matching : Bool)
    (hlen : dict.length + chunk.length < 2 ^ 31) (hne : chunk ≠ []) :
    ∃ e ops, Engine.init dict = .ok (some e) ∧
      e.encode matching chunk = .ok (ops.map Op.call ++ [.output]) ∧
      execOps dict ops = dict ++ chunk ∧
      (∀ pre op post, ops = pre ++ op :: post → Emittable dict.length matching (execOps dict pre).length op) ∧
      (∀ pre a b post, ops = pre ++ Op.add a :: b :: post → ∃ x n, b = .copy x n) := by
  obtain ⟨e, ops, h1, _, h3, h4⟩ := Engine.encode_whole (dict := dict) (target := chunk) (matching := matching)
    (by simp only [int32Max]; omega) hne
  exact ⟨e, ops, h1, h3, h4.exec, h4.emittable, h4.noAddAdd⟩

/-- C28. For an empty chunk the engine does nothing, not even `Output`. -/
theorem engine_ignores_empty (dict : Bytes) (matching : Bool) (hlen : dict.length < 2 ^ 31) :
    ∃ e, Engine.init dict = .ok (some e) ∧ e.encode matching [] = .ok [] := by
  obtain ⟨e, hashed, h1, rfl, _⟩ := Engine.init_ok (dict := dict) (by simp only [int32Max]; omega)
  exact ⟨_, h1, rfl⟩

/-- C41. A chunk equal to the dictionary, of at least 32 bytes, is encoded as one COPY of the whole
dictionary. -/
theorem same_as_dictionary_is_one_copy (dict : Bytes) (matching : Bool) (hlen : dict.length < 2 ^ 30)
    (h32 : 32 ≤ dict.length) :
    ∃ e, Engine.init dict = .ok (some e) ∧ e.encode matching dict = .ok [.copy 0 dict.length, .output] :=
  Engine.encode_same (by simp only [int32Max]; omega) h32

-- a dictionary of 48 bytes; the chunk is 3 new bytes and then bytes 4 to 47 of the dictionary, twice
example : (do
    let dict : Bytes := (List.range 48).map fun i => UInt8.ofNat (i * i)
    let piece := dict.drop 4
    let e? ← Engine.init dict
    match e? with
    | none => .error .assertion
    | some e => e.encode true ([1, 2, 3] ++ piece ++ piece) : Except Fault _).toOption =
    some [.add [1, 2, 3], .copy 4 44, .copy 4 44, .output] := by decide +kernel

-- a chunk that repeats itself: 4 bytes, then copies of what has been produced already
example : (do
    let e? ← Engine.init []
    match e? with
    | none => .error .assertion
    | some e => e.encode true ((List.replicate 30 [1, 2, 3, 4]).flatten) : Except Fault _).toOption =
    some [.add ([1, 2, 3, 4]), .copy 0 116, .output] := by decide +kernel

/-! ## C45 -/

/-- C45. Let the engine emit an ADD at position `sizes pre` of the chunk. At every position `c` of the ADD at which a
block of 16 bytes is left, there is no match of 32 bytes or more that covers this block and begins no earlier than
the ADD: neither around one of the blocks of the dictionary nor, with target matching, around a block that begins
before `c` in the chunk itself; as far as the search reaches (`InReach`: at most 17 blocks share the bucket, or the block is
the first equal one after at most 16 others). -/
theorem nothing_overlooked (dict chunk : Bytes) (matching : Bool) (e : Engine) (ops pre post : List Op) (lit : Bytes)
    (hlen : dict.length + chunk.length < 2 ^ 31) (hi : Engine.init dict = .ok (some e))
    (he : e.encode matching chunk = .ok (ops.map Op.call ++ [.output])) (hops : ops = pre ++ .add lit :: post)
    (c : Nat) (h1 : sizes pre ≤ c) (h2 : c < sizes pre + lit.length) (h3 : c + 16 ≤ chunk.length) :
    NoMatchAt dict chunk (dict.length / 16) (sizes pre) c ∧
      (matching = true → NoMatchAt chunk chunk ((c + 15) / 16) (sizes pre) c) := by
  have hw := Engine.encode_ops (by simp only [int32Max]; omega) hi he
  subst hops
  have := hw.noMiss (0 + sizes pre, lit.length) (Engine.literals_mem 0 pre lit post) c (by simp only; omega)
    (by simp only; omega) h3
  simpa [Engine.NoneAt] using this

/-- C45. If no bucket is shared by more than 17 blocks of the dictionary, no 32 bytes that occur in the dictionary, at
whatever position, are part of an ADD. -/
theorem dictionary_piece_never_sent (dict chunk : Bytes) (matching : Bool) (e : Engine) (ops pre post : List Op) (lit : Bytes)
    (hlen : dict.length + chunk.length < 2 ^ 31) (hroom : ∀ b, (sharing dict (dict.length / 16) b).length ≤ 17)
    (hi : Engine.init dict = .ok (some e))
    (he : e.encode matching chunk = .ok (ops.map Op.call ++ [.output])) (hops : ops = pre ++ .add lit :: post)
    (i j : Nat) (h1 : i + 32 ≤ lit.length) (h2 : j + 32 ≤ dict.length) : (lit.drop i).take 32 ≠ (dict.drop j).take 32 := by
  have hw := Engine.encode_ops (by simp only [int32Max]; omega) hi he
  subst hops
  exact Engine.no_dictionary_piece hw hroom h1 h2

theorem sharing_le (data : Bytes) (n : Nat) (b : Bytes) : (sharing data n b).length ≤ n := by
  rw [sharing]
  exact Nat.le_trans (List.length_filter_le _ _) (by simp)

/-- C45. In particular for every dictionary of less than 288 bytes, whatever its contents. -/
theorem short_dictionary_piece_never_sent (dict chunk : Bytes) (matching : Bool) (e : Engine) (ops pre post : List Op)
    (lit : Bytes) (hlen : dict.length + chunk.length < 2 ^ 31) (hshort : dict.length < 288)
    (hi : Engine.init dict = .ok (some e))
    (he : e.encode matching chunk = .ok (ops.map Op.call ++ [.output])) (hops : ops = pre ++ .add lit :: post)
    (i j : Nat) (h1 : i + 32 ≤ lit.length) (h2 : j + 32 ≤ dict.length) : (lit.drop i).take 32 ≠ (dict.drop j).take 32 :=
  dictionary_piece_never_sent dict chunk matching e ops pre post lit hlen
    (fun b => Nat.le_trans (sharing_le _ _ b) (by omega)) hi he hops i j h1 h2

/-- C45. With target matching, no 32 bytes that occur earlier in the chunk, overlapping or not, are part of an ADD, if no
bucket is shared by more than 17 blocks of the chunk. -/
theorem repeated_piece_never_sent (dict chunk : Bytes) (e : Engine) (ops pre post : List Op) (lit : Bytes)
    (hlen : dict.length + chunk.length < 2 ^ 31) (hroom : ∀ b, (sharing chunk (chunk.length / 16) b).length ≤ 17)
    (hi : Engine.init dict = .ok (some e))
    (he : e.encode true chunk = .ok (ops.map Op.call ++ [.output])) (hops : ops = pre ++ .add lit :: post)
    (i j : Nat) (h1 : i + 32 ≤ lit.length) (h2 : j < sizes pre + i) : (lit.drop i).take 32 ≠ (chunk.drop j).take 32 := by
  have hw := Engine.encode_ops (by simp only [int32Max]; omega) hi he
  subst hops
  exact Engine.no_target_piece hw hroom h1 h2

-- The hypotheses of the statements above are met: dictionary and chunk have less than 288 bytes; an ADD of 40 bytes is
-- followed by a COPY from the dictionary, another ADD and a COPY from the chunk.
example : (do
    let dict : Bytes := (List.range 48).map fun i => UInt8.ofNat (i * i)
    let fresh : Bytes := (List.range 40).map fun i => UInt8.ofNat (7 * i + 101)
    let e? ← Engine.init dict
    match e? with
    | none => .error .assertion
    | some e => e.encode true (fresh ++ dict.drop 4 ++ List.replicate 40 9) : Except Fault _).toOption =
    some (([] ++ Op.add ((List.range 40).map fun i => UInt8.ofNat (7 * i + 101)) ::
      [Op.copy 4 44, Op.add [9], Op.copy 132 39]).map Op.call ++ [.output]) := by decide +kernel

end Vcd.Props
