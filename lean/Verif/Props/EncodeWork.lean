import Verif.Proof.EncodeWork
import Verif.Proof.Json
import Verif.Props.Work

/-!
# C61: the whole of `EncodeChunk` takes a time proportional to the size of the chunk
-/

namespace Vcd.Props
open Vcd Vcd.Spec

/-- The counting functions of `Model.EncodeWork` compute what the encoder computes. -/
theorem work_counts_encoder (e : Encoder) (chunk : Bytes) : (e.chunkW chunk).map Prod.fst = e.chunk chunk :=
  Encoder.chunkW_val e chunk

/-- The engine's steps for a chunk, and its calls. -/
private theorem engine_steps {dict chunk : Bytes} {matching : Bool} {e : Engine} (he : Engine.init dict = .ok (some e))
    (hlen : dict.length + chunk.length < 2 ^ 31) :
    ∃ calls w, e.encodeW matching chunk = .ok (calls, w) ∧
      w.steps + Engine.targetTableSteps matching chunk ≤ (if matching then 39490 else 19761) * chunk.length + 68 ∧
      (calls = [] ∨ ∃ ops, calls = ops.map Op.call ++ [.output] ∧ ops.length ≤ chunk.length / 16 + 1 ∧ sizes ops = chunk.length ∧
        ∀ a n, Op.copy a n ∈ ops → a < 2 ^ 31 ∧ n < 2 ^ 31) := by
  obtain ⟨e', calls, w, h1, h2, h3, g1, g2, g3, g4, g5, g6⟩ := encoding_is_linear dict chunk matching hlen
  rw [he] at h1
  cases h1
  refine ⟨calls, w, h3, ?_, ?_⟩
  · obtain ⟨j, j1, j2, j3⟩ := calcTableSize_spec chunk.length (by simp only [size64]; omega)
    have hk : kBlockSize = 16 := rfl
    have ht : calcTableSize chunk.length ≤ chunk.length / 2 + 2 := by
      rw [j1]
      rcases j3 with j3 | rfl <;> omega
    simp only [Work.steps, Engine.targetTableSteps, hk]
    cases matching with
    | false => simp only [Bool.false_eq_true, if_false] at g2 g3 g5 ⊢; omega
    | true => simp only [if_true] at g2 g3 g5 ⊢; omega
  · by_cases hne : chunk = []
    · left
      subst hne
      obtain ⟨e1, k1, k2⟩ := engine_ignores_empty dict matching (by omega)
      rw [he] at k1
      cases k1
      rw [k2] at h2
      cases h2
      rfl
    · right
      obtain ⟨e2, ops, k1, k2, k3, k4⟩ := Engine.encode_whole (dict := dict) (target := chunk) (matching := matching)
        (by simp only [int32Max]; omega) hne
      rw [he] at k1
      cases k1
      rw [h2] at k3
      have k3 := Except.ok.inj k3
      have hT := execOps_length ops dict
      rw [k4.exec, List.length_append] at hT
      refine ⟨ops, k3, ?_, by omega, ?_⟩
      · rw [k3] at g6
        simp only [List.length_append, List.length_map, List.length_cons, List.length_nil] at g6
        omega
      · intro a n hm
        obtain ⟨pre, post, rfl⟩ := List.append_of_mem hm
        have hem := k4.emittable pre _ post rfl
        have hp := execOps_length pre dict
        simp only [sizes, List.map_append, List.sum_append, List.map_cons, List.sum_cons, Op.size] at hT hp
        simp only [Emittable] at hem
        omega

/-- The JSON encoder between calls. -/
private structure JsonInv (e0 e : Encoder) : Prop where
  engine : e.engine = e0.engine
  matching : e.lookForTargetMatches = e0.lookForTargetMatches
  flags : e.flags = e0.flags
  coder : ∃ w, e.coder = .json w ∧ w.output.length ≤ 1

private theorem json_chunk {e0 e : Encoder} {dict chunk : Bytes} (he : Engine.init dict = .ok (some e0.engine))
    (h : JsonInv e0 e) (hlen : dict.length + chunk.length < 2 ^ 31) :
    ∃ ret out e' n, e.chunkW chunk = .ok ((ret, out, e'), n) ∧ JsonInv e0 e' ∧
      n ≤ (if e0.lookForTargetMatches then 40000 else 20000) * chunk.length + 1000 := by
  obtain ⟨h1, h2, h3, w, h4, h5⟩ := h
  obtain ⟨calls, work, k1, k2, k3⟩ := engine_steps (matching := e0.lookForTargetMatches) he hlen
  have ha := JsonWriter.isAsciiW_steps chunk
  unfold Encoder.chunkW
  split
  · exact ⟨false, [], e, 0, rfl, ⟨h1, h2, h3, w, h4, h5⟩, Nat.zero_le _⟩
  · simp only [h4, h1, h2, k1]
    split
    · refine ⟨false, [], e, _, rfl, ⟨h1, h2, h3, w, h4, h5⟩, ?_⟩
      split <;> omega
    · refine ⟨true, _, _, _, rfl, ⟨rfl, rfl, h3, _, rfl, ?_⟩, ?_⟩
      · rcases k3 with rfl | ⟨ops, rfl, _, _, c4⟩
        · exact h5
        · rw [(JsonWriter.callsW_steps ops w c4).2]; simp
      · have hcalls : (w.callsW calls).2 ≤ 23 * chunk.length + 65 := by
          rcases k3 with rfl | ⟨ops, rfl, c2, c3, c4⟩
          · simp [JsonWriter.callsW]
          · have := (JsonWriter.callsW_steps ops w c4).1
            omega
        have hsum : (if e.flags &&& 2 ≠ 0 then chunk.length else 0) ≤ chunk.length := by split <;> omega
        cases hm : e0.lookForTargetMatches <;> rw [hm] at k2 <;> simp only [Bool.false_eq_true, if_false, if_true] at k2 ⊢ <;> omega

private theorem json_calls {e0 : Encoder} {dict : Bytes} (he : Engine.init dict = .ok (some e0.engine)) (cs : List EncoderCall) :
    ∀ e, JsonInv e0 e → EachChunk (fun d => dict.length + d.length < 2 ^ 31) cs → ∃ rs e', e.calls cs = .ok (rs, e') ∧ JsonInv e0 e' := by
  induction cs with
  | nil => intro e h _; exact ⟨[], e, rfl, h⟩
  | cons c cs ih =>
    intro e h hs
    have hs' : EachChunk (fun d => dict.length + d.length < 2 ^ 31) cs := fun data hm => hs data (List.mem_cons_of_mem _ hm)
    have key : ∃ r e1, e.call c = .ok (r, e1) ∧ JsonInv e0 e1 := by
      cases c with
      | start =>
        obtain ⟨h1, h2, h3, w, h4, h5⟩ := h
        simp only [Encoder.call, Encoder.start, h4]
        split
        · exact ⟨_, _, rfl, h1, h2, h3, w.init, rfl, by simp [JsonWriter.init]⟩
        · exact ⟨_, _, rfl, h1, h2, h3, w.init, rfl, by simp [JsonWriter.init]⟩
      | chunk data =>
        obtain ⟨ret, out, e1, n, k1, k2, _⟩ := json_chunk he h (hs data (List.mem_cons_self ..))
        have hv := Encoder.chunkW_val e data
        rw [k1] at hv
        exact ⟨⟨ret, out⟩, e1, by simp only [Encoder.call, ← hv, Except.map], k2⟩
      | finish =>
        obtain ⟨h1, h2, h3, w, h4, h5⟩ := h
        simp only [Encoder.call, Encoder.finish, h4]
        split
        · exact ⟨_, _, rfl, h1, h2, h3, w, h4, h5⟩
        · exact ⟨_, _, rfl, h1, h2, h3, w, rfl, h5⟩
    obtain ⟨r, e1, k1, k2⟩ := key
    obtain ⟨rs, e2, j1, j2⟩ := ih e1 k2 hs'
    exact ⟨r :: rs, e2, by simp only [Encoder.calls, k1, j1], j2⟩

/-- C61. The whole of a call of `EncodeChunk`: the verification of the chunk, its checksum, the search for matches, the code table
writer or the JSON writer (every byte put in a section or in the output, every byte of a variable-length integer or of a
number, every place of the address cache examined or cleared) and the tables for matches in the target. For every dictionary, all
format flags, every setting of target matching, every history of calls and every chunk (each chunk 64 bytes, or with its
dictionary one byte, short of 2 GB), it is at most 20000 steps for each byte of the chunk (40000 with target matching)
and 1000 steps more: it depends neither on the dictionary, nor on what was encoded before, nor on the data. -/
theorem encode_chunk_is_linear (dict : Bytes) (hdict : dict.length < 2 ^ 31) (flags : Nat) (matching : Bool) (cs : List EncoderCall)
    (chunk : Bytes) (hcs : ∀ data, .chunk data ∈ cs → dict.length + data.length < 2 ^ 31 ∧ data.length + 64 < 2 ^ 31)
    (hlen : dict.length + chunk.length < 2 ^ 31 ∧ chunk.length + 64 < 2 ^ 31) :
    ∃ engine rs e r n, Engine.init dict = .ok (some engine) ∧ (Encoder.new engine flags matching).calls cs = .ok (rs, e) ∧
      e.chunk chunk = .ok r ∧ e.chunkW chunk = .ok (r, n) ∧
      n ≤ (if matching then 40000 else 20000) * chunk.length + 1000 := by
  obtain ⟨engine, hashed, h1, h2, _⟩ := Engine.init_ok (dict := dict) (by simp only [int32Max]; omega)
  have hd : engine.dictionary = dict := by rw [h2]
  by_cases hb : flags &&& 4 = 0
  · obtain ⟨m, u⟩ := Encoder.usable
    obtain ⟨e, k1, k2⟩ := Encoder.calls_ok (e0 := Encoder.new engine flags matching) (dict := dict) u h1 hd
      (Encoder.new_inv hb m) (cs := cs) hcs
    have hok : ∃ r, e.chunk chunk = .ok r := by
      cases ha : e.allowed
      · exact ⟨(false, [], e), by simp [Encoder.chunk, ha]⟩
      · obtain ⟨e', c1, _⟩ := Encoder.chunk_ok u h1 hd k2 ha hlen
        rcases hx : e.chunk chunk with f | r
        · simp only [Encoder.call, hx, Except.map] at c1; cases c1
        · exact ⟨r, rfl⟩
    obtain ⟨r, hr⟩ := hok
    have hv := Encoder.chunkW_val e chunk
    rw [hr] at hv
    rcases hw : e.chunkW chunk with f | ⟨r', n⟩
    · rw [hw] at hv; cases hv
    rw [hw] at hv
    have hv := Except.ok.inj hv
    simp only at hv
    subst hv
    refine ⟨engine, _, e, r', n, h1, k1, hr, hw, ?_⟩
    unfold Encoder.chunkW at hw
    split at hw
    · obtain ⟨_, rfl⟩ := Timed.ok_inj hw; exact Nat.zero_le _
    rename_i ha
    obtain ⟨i1, i2, i3, w, i4, i5, i6, i7⟩ := k2
    have hready := i7.resolve_left (fun h => by rw [h.2] at ha; exact ha rfl)
    obtain ⟨c1, c2⟩ := Encoder.chunkWriter_ready hready i5 i6 chunk
    obtain ⟨calls, work, s1, s2, s3⟩ := engine_steps (matching := matching) h1 hlen.1
    simp only [i4, i1, i2, i3, c1] at hw
    obtain ⟨n1, q1, rfl⟩ := Timed.after_ok hw
    have s1' : (Encoder.new engine flags matching).engine.encodeW (Encoder.new engine flags matching).lookForTargetMatches chunk =
      .ok (calls, work) := s1
    rw [s1'] at q1
    simp only at q1
    obtain ⟨n2, q2, rfl⟩ := Timed.after_ok q1
    obtain ⟨r2, n3, _, q3, q4, rfl⟩ := Timed.andThen_ok q2
    obtain ⟨_, rfl⟩ := Timed.ok_inj q4
    have hmt : (Encoder.new engine flags matching).lookForTargetMatches = matching := rfl
    rw [hmt]
    have hcalls : n3 ≤ 5 * chunk.length + 928 := by
      rcases s3 with rfl | ⟨ops, rfl, o1, o2, _⟩
      · obtain ⟨_, rfl⟩ := Timed.ok_inj q3; omega
      · have := Writer.callsW_steps ops (w := Encoder.chunkWriter (Encoder.new engine flags matching) m chunk) rfl rfl q3
        have hh : (Encoder.chunkWriter (Encoder.new engine flags matching) m chunk).held = 0 := rfl
        omega
    have hsum : (if (Encoder.new engine flags matching).flags &&& 2 ≠ 0 then chunk.length else 0) ≤ chunk.length := by split <;> omega
    cases matching <;> simp only [Bool.false_eq_true, if_false, if_true] at s2 ⊢ <;> omega
  · have hinv : JsonInv (Encoder.new engine flags matching) (Encoder.new engine flags matching) :=
      ⟨rfl, rfl, rfl, {}, by simp [Encoder.new, createWriter, hb], by simp⟩
    obtain ⟨rs, e, k1, k2⟩ := json_calls (e0 := Encoder.new engine flags matching) h1 cs _ hinv (fun d hm => (hcs d hm).1)
    obtain ⟨ret, out, e', n, j1, j2, j3⟩ := json_chunk h1 k2 hlen.1
    have hv := Encoder.chunkW_val e chunk
    rw [j1] at hv
    exact ⟨engine, rs, e, (ret, out, e'), n, h1, k1, hv.symm, j1, j3⟩

/-- The steps of a chunk that repeats a part of the dictionary, after another chunk, in the standard, the extended and
the JSON format. -/
private def steps (flags : Nat) : Option Nat :=
  match Engine.init (List.replicate 32 97 ++ (List.range 16).map UInt8.ofNat) with
  | .ok (some engine) =>
    match (Encoder.new engine flags true).calls [.start, .chunk [1, 2, 3]] with
    | .ok (_, e) =>
      match e.chunkW (List.replicate 20 97 ++ (List.range 16).map UInt8.ofNat ++ [9, 9, 9, 9]) with
      | .ok (_, n) => some n
      | .error _ => none
    | .error _ => none
  | _ => none

example : (steps 0, steps 3, steps 4) = (some 1255, some 1309, some 540) := by decide +kernel

end Vcd.Props
