import Verif.Proof.Machine
import Verif.Props.Encoder
import Verif.Props.WordSize

/-!
# C77: the encoder on other machines

`Machine.pairCalls M` is the encoder compiled for the machine `M`: sums, differences and products of sizes are taken modulo `2 ^ M.bits`, and
blocks are compared in words of `M.word` bytes in the byte order of `M`, or byte by byte (`Verif.Model.Machine`).
`Encoder.pairCalls` counts in natural numbers and compares words of 8 bytes.
-/

namespace Vcd.Props
open Vcd Vcd.Spec

/-- C77: on every machine whose `size_t` has at least 32 bits, and whose words fill a block, any calls of `HashedDictionary::Init` and of the
encoder's methods get the same answers and the same output, and the same faults. All formats, JSON among them; dictionary and chunk have less
than 2^31 bytes together. -/
theorem same_on_every_machine (M : Machine) (hbits : 32 ≤ M.bits) (hword : 0 < M.word) (hblock : M.word ∣ 16) (dict : Bytes)
    (hdict : dict.length < 2 ^ 31) (flags : Nat) (matching : Bool) (cs : List PairCall)
    (hs : EachPairChunk (fun data => dict.length + data.length < 2 ^ 31 ∧ data.length + 64 < 2 ^ 31) cs) :
    M.pairCalls (Encoder.newPair dict flags matching) cs = (Encoder.newPair dict flags matching).pairCalls cs := by
  have hM : M.Supported := ⟨hbits, hword, hblock⟩
  obtain ⟨m, u⟩ := Encoder.usable
  obtain ⟨engine, _, he, _⟩ := Engine.init_ok (dict := dict) (by simp only [int32Max]; omega)
  by_cases hb : flags &&& 4 = 0
  · exact hM.pairCalls_binary hdict u he cs _ ⟨false, Encoder.new_inv hb m⟩ hs
  · exact hM.pairCalls_json cs _ ⟨{}, by simp [Encoder.newPair, Encoder.new, createWriter, hb]⟩ hdict
      (fun d hm => by have := (hs d hm).1; omega)

/-- C77: two such machines write the same deltas. -/
theorem machines_agree (M N : Machine) (hM : 32 ≤ M.bits ∧ 0 < M.word ∧ M.word ∣ 16) (hN : 32 ≤ N.bits ∧ 0 < N.word ∧ N.word ∣ 16)
    (dict : Bytes) (hdict : dict.length < 2 ^ 31) (flags : Nat) (matching : Bool) (cs : List PairCall)
    (hs : EachPairChunk (fun data => dict.length + data.length < 2 ^ 31 ∧ data.length + 64 < 2 ^ 31) cs) :
    M.pairCalls (Encoder.newPair dict flags matching) cs = N.pairCalls (Encoder.newPair dict flags matching) cs := by
  rw [same_on_every_machine M hM.1 hM.2.1 hM.2.2 dict hdict flags matching cs hs,
    same_on_every_machine N hN.1 hN.2.1 hN.2.2 dict hdict flags matching cs hs]

/-- C77: a delta made on one machine can be read on another: every call of the encoder on `M` succeeds, and every call of a decoder whose `size_t`
has `W` values, given the delta in any pieces, succeeds and together they output the target. (Limits of the decoder: the default.) -/
theorem delta_travels (M : Machine) (hbits : 32 ≤ M.bits) (hword : 0 < M.word) (hblock : M.word ∣ 16) (W : Nat) (hW : 2 ^ 32 ≤ W)
    (dict : Bytes) (hdict : dict.length < 2 ^ 31) (flags : Nat) (hb : flags &&& 4 = 0) (matching : Bool) (chunks : List Bytes)
    (hs : ∀ data ∈ chunks, dict.length + data.length < 2 ^ 31) (hfile : chunks.flatten.length ≤ 2 ^ 26) :
    ∃ replies, M.pairCalls (Encoder.newPair dict flags matching)
          (.init :: (([.start] ++ chunks.map .chunk ++ [.finish] : List EncoderCall).map .encoder)) = (replies, none) ∧
      (∀ r ∈ replies, r.ret = true) ∧
      ∀ pieces : List Bytes, pieces.flatten = replies.flatMap (·.out) →
        ∃ answers d, Word.calls W {} (.start dict :: pieces.map .chunk ++ [.finish]) = .ok (answers, d) ∧
          (∀ a ∈ answers, a.ret = true) ∧ answers.flatMap (·.out) = chunks.flatten := by
  have hlen : ∀ data ∈ chunks, data.length ≤ 2 ^ 26 := by
    intro data hm
    exact Nat.le_trans (List.Sublist.length_le (List.sublist_flatten_of_mem hm)) hfile
  have hs' : ∀ data ∈ chunks, dict.length + data.length < 2 ^ 31 ∧ data.length + 64 < 2 ^ 31 :=
    fun data hm => ⟨hs data hm, by have := hlen data hm; omega⟩
  obtain ⟨delta, k1, k2⟩ := round_trip dict hdict flags hb matching chunks hs' {} hlen hfile
  rw [same_on_every_machine M hbits hword hblock dict hdict flags matching _ (by
    intro data hm
    simp at hm
    exact hs' data hm)]
  unfold encode at k1
  split at k1
  · cases k1
  · cases k1
  · rename_i engine he
    split at k1
    · cases k1
    · rename_i rs e' hc
      obtain ⟨i1, _, i3⟩ := Engine.initCall_first he
      split at k1
      · rename_i hall
        simp only [Except.ok.injEq, Option.some.injEq] at k1
        have p1 : (Encoder.newPair dict flags matching).pairCall .init = .ok (⟨true, []⟩, Encoder.new engine flags matching) := by
          simp only [Encoder.pairCall, Encoder.newPair, Encoder.new, i1]
        refine ⟨⟨true, []⟩ :: rs, ?_, ?_, ?_⟩
        · rw [Encoder.pairCalls, p1]
          have := Encoder.pairCalls_of_calls _ hc
          simp only [List.cons_append, List.nil_append] at this ⊢
          simp only [this]
        · intro r hr
          rcases List.mem_cons.1 hr with rfl | hr
          · rfl
          · exact List.all_eq_true.1 hall r hr
        · intro pieces hp
          rw [List.flatMap_cons, List.nil_append, k1] at hp
          obtain ⟨answers, d, a1, a2, a3⟩ := Decoder.calls_of_decode (k2 pieces hp)
          refine ⟨answers, d, ?_, a2, a3⟩
          rw [size_t_width_does_not_matter W hW _ (by simp) (by
            have : ∀ (started : Bool) (l : List Bytes), LimitKept started (2 ^ 26) (l.map DecoderCall.chunk ++ [.finish]) := by
              intro started l
              induction l with
              | nil => simp [LimitKept]
              | cons c l ih => simpa [LimitKept] using ih
            simpa [LimitKept] using this _ pieces)]
          exact a1
      · cases k1

/-- The hypotheses are met by a 32-bit machine with words of 4 bytes in the other order, and matter: with a `size_t` of 5 bits the length of the
match would be taken modulo 32, and it would not be worth a COPY. -/
example :
    let old : Machine := { bits := 32, word := 4, bigEndian := true, compareWords := true }
    let tiny : Machine := { bits := 5, word := 1, bigEndian := false, compareWords := false }
    let cs : List PairCall := [.init, .encoder .start, .encoder (.chunk (List.replicate 40 0x61)), .encoder .finish]
    (32 ≤ old.bits ∧ 0 < old.word ∧ old.word ∣ 16) ∧
      EachPairChunk (fun data => ([1, 2, 3] : Bytes).length + data.length < 2 ^ 31 ∧ data.length + 64 < 2 ^ 31) cs ∧
      old.pairCalls (Encoder.newPair [1, 2, 3] 4 true) cs =
        ([⟨true, []⟩, ⟨true, []⟩, ⟨true, [0x5B, 0x22, 0x61, 0x22, 0x2C, 0x33, 0x2C, 0x33, 0x39]⟩, ⟨true, [0x5D]⟩], none) ∧
      tiny.pairCalls (Encoder.newPair [1, 2, 3] 4 true) cs =
        ([⟨true, []⟩, ⟨true, []⟩, ⟨true, [0x5B, 0x22] ++ List.replicate 40 0x61 ++ [0x22]⟩, ⟨true, [0x5D]⟩], none) := by
  refine ⟨by decide, ?_, by decide +kernel, by decide +kernel⟩
  intro data hm
  simp only [List.mem_cons, PairCall.encoder.injEq, EncoderCall.chunk.injEq, reduceCtorEq, List.not_mem_nil, or_false, false_or] at hm
  subst hm
  decide

end Vcd.Props
