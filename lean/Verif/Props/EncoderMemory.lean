import Verif.Proof.EncoderMemory
import Verif.Props.Ownership

/-!
# The memory of dictionaries and encoders (C76)

`stored w` is what is stored in the objects of `w` apart from members of a fixed size.
-/

namespace Vcd.Props
open Vcd.Spec hiding Op
open Vcd.Ownership (Op World Bad Text)

/-- C76: the block hash of `n` bytes has tables of at most `5n/2 + 4` bytes, whatever the bytes are. -/
theorem block_hash_memory (source : Bytes) (hs : source.length < size64) (offset : Int) (populate : Bool) (bh : BlockHash)
    (h : Release.create source offset populate = .ok (some bh)) : tableBytes bh ≤ 5 * source.length / 2 + 4 := by
  have := Release.create_size hs h
  omega

/-- C76: between calls nothing is stored but, for each dictionary that exists, its copy and its block hash, and a byte for each encoder that
exists. How many chunks have been encoded and how long they were does not matter. -/
theorem memory_between_calls (ops : List Op) (h : obeyed [] [] ops = true)
    (hd : ∀ contents, .dictionary contents ∈ ops → contents.length < 2 ^ 31)
    (hs : ∀ contents e data, .dictionary contents ∈ ops → .call e (.chunk data) ∈ ops →
      contents.length + data.length < 2 ^ 31 ∧ data.length + 64 < 2 ^ 31) :
    let w := (World.run {} ops).2.2
    stored w ≤ ((existing ops w).map fun c => c.length + (5 * c.length / 2 + 4)).sum + (w.encoders.filter (·.isSome)).length := by
  have hstop := (only_dictionary_kept_alive ops h hd hs).1
  obtain ⟨D, E, k1, k2, k3, k4⟩ :=
    Ownership.run_keeps ops Ownership.Inv.new h (DD := dictionariesOf ops) (ED := encodersOf ops) rfl rfl hstop
  have hdict : ∀ {d : Nat} {contents : Bytes}, (dictionariesOf ops)[d]? = some contents → .dictionary contents ∈ ops := by
    intro d contents hc
    have hm := List.mem_of_getElem? hc
    unfold dictionariesOf at hm
    rw [List.mem_filterMap] at hm
    obtain ⟨op, h1, h2⟩ := hm
    cases op with
    | dictionary c => simp only [Option.some.injEq] at h2; subst h2; exact h1
    | _ => cases h2
  have hchunk : ∀ {d e : Nat} {contents : Bytes} {c : PairCall}, .dictionary contents ∈ ops → c ∈ callsOf d e ops →
      EachPairChunk (Encoder.Small contents) [c] := by
    intro d e contents c hc hm data hm'
    rw [List.mem_singleton] at hm'
    subst hm'
    unfold callsOf at hm
    rw [List.mem_filterMap] at hm
    obtain ⟨op, h1, h2⟩ := hm
    cases op with
    | call e' c =>
      simp only [concerns] at h2
      split at h2
      · simp only [Option.some.injEq, PairCall.encoder.injEq] at h2
        subst h2
        exact hs contents e' data hc h1
      · cases h2
    | init d' =>
      simp only [concerns] at h2
      split at h2
      · cases h2
      · cases h2
    | _ => cases h2
  refine k1.stored_le k2 ?_ ?_
  · intro d x bh hx hbh
    have hc : (dictionariesOf ops)[d]? = some x.engine.dictionary := by rw [k2, List.getElem?_map, hx]; rfl
    have hlt := hd _ (hdict hc)
    have hE : E[(encodersOf ops).length]? = none := by rw [k3]; simp
    have := k4 d (encodersOf ops).length 0 false x.engine.dictionary
      ⟨hc, fun z hz => by rw [List.getElem?_eq_none (Nat.le_refl _)] at hz; cases hz⟩
      (fun p => p.engine.dictionary = x.engine.dictionary ∧ ∀ b, p.engine.hashed = some b →
        2 * tableBytes b ≤ 5 * x.engine.dictionary.length + 8) ?_ ?_
    · rw [Ownership.now_new hE hx] at this
      exact this.2 bh hbh
    · rintro p c r p' hm ⟨h1, h2⟩ hp
      cases c with
      | encoder c =>
        rw [(Ownership.pairCall_keeps hp).1]
        exact ⟨h1, h2⟩
      | init =>
        simp only [Release.pairCall, Release.initCall] at hp
        cases hh : p.engine.hashed with
        | some b =>
          simp only [hh] at hp
          cases hp
          exact ⟨h1, fun b hb => h2 b (by rw [hh]; rw [← hh]; exact hb)⟩
        | none =>
          cases hcr : Release.create p.engine.dictionary 0 true with
          | error f => simp only [hh, hcr] at hp; cases hp
          | ok o =>
            cases o with
            | none =>
              simp only [hh, hcr] at hp
              cases hp
              exact ⟨h1, h2⟩
            | some b =>
              simp only [hh, hcr] at hp
              cases hp
              refine ⟨h1, fun b' hb' => ?_⟩
              cases hb'
              have := Release.create_size (by rw [h1]; simp only [size64]; omega) hcr
              rwa [h1] at this
    · exact ⟨rfl, fun b hb => by cases hb⟩
  · intro e y hy
    obtain ⟨x, hx, _⟩ := k1.fit e y hy
    have hc : (dictionariesOf ops)[y.dict]? = some x.engine.dictionary := by rw [k2, List.getElem?_map, hx]; rfl
    have hen : (encodersOf ops)[e]? = some (y.dict, y.enc.flags, y.enc.lookForTargetMatches) := by
      rw [k3, List.getElem?_map, hy]; rfl
    have hf : Ownership.Fits (dictionariesOf ops) (encodersOf ops) y.dict e y.enc.flags y.enc.lookForTargetMatches x.engine.dictionary :=
      ⟨hc, fun z hz => by rw [hen] at hz; exact (Option.some.inj hz).symm⟩
    have hlt := hd _ (hdict hc)
    have hnow := fun P hP h0 => k4 y.dict e y.enc.flags y.enc.lookForTargetMatches x.engine.dictionary hf P hP h0
    rw [Ownership.now_enc hy] at hnow
    by_cases hj : y.enc.flags &&& 4 = 0
    · obtain ⟨m, u⟩ := Encoder.usable
      obtain ⟨engine, _, he, _⟩ := Engine.init_ok (dict := x.engine.dictionary) (by simp only [int32Max]; omega)
      obtain ⟨inited, hi⟩ := hnow (fun p => ∃ inited,
          Encoder.Inv (Encoder.new (engineWhen x.engine.dictionary engine inited) y.enc.flags y.enc.lookForTargetMatches) m p)
        (fun p c r p' hm hp hpc => Encoder.tidy_binary u he hp (hchunk (hdict hc) hm) hpc)
        ⟨false, rfl, rfl, rfl, Writer.new (y.enc.flags &&& 1 != 0), by
          simp [Ownership.now, Encoder.newPair, Encoder.new, createWriter, hj], rfl, fun _ => rfl, Or.inl ⟨rfl, rfl⟩⟩
      rw [hi.buffers]
      exact Nat.zero_le _
    · obtain ⟨w, h1, h2⟩ := hnow (fun p => ∃ w, p.coder = .json w ∧ w.output.length ≤ 1)
        (fun p c r p' _ hp hpc => Encoder.tidy_json hp hpc)
        ⟨{}, by simp [Ownership.now, Encoder.newPair, Encoder.new, createWriter, hj], by simp⟩
      rw [h1]
      exact h2

/-- C76: the only thing `EncodeChunk` makes for a chunk of `n` bytes is a block hash, of at most `5n/2 + 4` bytes; what it leaves behind of it is nothing. -/
theorem target_hash_memory (w w' : World) (engine : Engine) (matching : Bool) (data : Text) (bytes : Bytes) (hr : w.read data = .ok bytes)
    (hl : bytes.length < size64) (hash : Option Nat) (h : w.targetHash engine matching data = .ok (w', hash)) :
    stored w' ≤ stored w + (5 * bytes.length / 2 + 4) ∧
    ∃ w'', w'.deleteTargetHash hash = .ok w'' ∧ stored w'' = stored w := by
  unfold World.targetHash at h
  rw [hr, Ownership.ok_bind] at h
  split at h
  · cases h; exact ⟨Nat.le_add_right _ _, w, rfl, rfl⟩
  · cases hc : Release.create bytes (toInt32 engine.dictionary.length) false with
    | error f => rw [hc] at h; cases h
    | ok o =>
      rw [hc] at h
      cases o with
      | none => cases h; exact ⟨Nat.le_add_right _ _, w, rfl, rfl⟩
      | some bh =>
        cases h
        have hb := block_hash_memory bytes hl _ _ bh hc
        have e : tableBytes { bh with source := [] } = tableBytes bh := rfl
        refine ⟨?_, { w with hashes := w.hashes ++ [none] }, ?_, ?_⟩
        · simp only [stored, bytesOf, List.map_append, List.sum_append, List.map_cons, List.map_nil, List.sum_cons, List.sum_nil, e]
          omega
        · simp only [World.deleteTargetHash]
          rw [Ownership.delete_some (Ownership.getElem?_snoc_last rfl), Ownership.ok_bind]
          simp
        · simp [stored, bytesOf]

/-- C76: while a chunk of `n` bytes is encoded in a binary format, there are at no time more than `n + 44` bytes in the strings of the writer: the
engine makes calls to it, and this holds after any of them. -/
theorem memory_while_encoding (dict data : Bytes) (hd : dict.length + data.length < 2 ^ 31) (hl : data.length + 64 < 2 ^ 31) (flags : Nat)
    (matching : Bool) :
    ∃ engine w calls, Engine.init dict = .ok (some engine) ∧ (Writer.new (flags &&& 1 != 0)).init dict.length = .ok (true, w) ∧
      engine.encode matching data = .ok calls ∧
      ∀ pre post, calls = pre ++ post → ∃ out w',
        (if flags &&& 2 ≠ 0 then w.addChecksum (computeAdler32 data) else w).calls pre = .ok (out, w') ∧
        bufferBytes (.binary w') ≤ data.length + 44 := by
  obtain ⟨m, u⟩ := Encoder.usable
  obtain ⟨engine, hashed, he, hen, _⟩ := Engine.init_ok (dict := dict) (by simp only [int32Max]; omega)
  have hdict : engine.dictionary = dict := by rw [hen]
  obtain ⟨w, w1, w2, w3, w4⟩ := Writer.init_ready u (w := Writer.new (flags &&& 1 != 0)) dict.length
    rfl rfl (Or.inl rfl) (Or.inl rfl) rfl rfl rfl
  have hcw := Encoder.chunkWriter_ready (e0 := Encoder.new engine flags matching) (m := m) (w := w)
    (by simp only [Encoder.new, hdict]; exact w4) w2 (fun _ => w3) data
  obtain ⟨c1, c2⟩ := hcw
  have c1 : (if flags &&& 2 ≠ 0 then w.addChecksum (computeAdler32 data) else w) =
      Encoder.chunkWriter (Encoder.new engine flags matching) m data := c1
  have c2 : Writer.Ready defaultCoding 8 m dict.length (Encoder.chunkWriter (Encoder.new engine flags matching) m data) := by
    simpa only [Encoder.new, hdict] using c2
  have c3 : (Encoder.chunkWriter (Encoder.new engine flags matching) m data).inStrings = 0 := rfl
  rcases Encoder.window_spec (e0 := Encoder.new engine flags matching) u he ⟨hd, hl⟩ c2 with
    ⟨_, _, k⟩ | ⟨hne, calls, k1, k2, k3, k4, _⟩
  · refine ⟨engine, w, [], he, w1, k, ?_⟩
    intro pre post hp
    obtain ⟨rfl, rfl⟩ := List.append_eq_nil_iff.1 hp.symm
    exact ⟨[], _, rfl, by rw [c1]; exact Nat.zero_le _⟩
  · refine ⟨engine, w, calls, he, w1, k1, ?_⟩
    intro pre post hp
    rw [c1]
    subst hp
    obtain ⟨o1, w', o2, j1, j2, j3⟩ := Writer.calls_split pre post k2
    refine ⟨o1, w', j1, ?_⟩
    show w'.inStrings ≤ _
    obtain ⟨e, ops, q1, _, q3, _⟩ := Engine.encode_whole (dict := dict) (target := data) (matching := matching)
      (by simp only [int32Max]; omega) hne
    rw [he] at q1
    cases q1
    have k1 : engine.encode matching data = .ok (pre ++ post) := k1
    rw [k1] at q3
    have hcalls : pre ++ post = ops.map Spec.Op.call ++ [.output] := Except.ok.inj q3
    have hno : CoderCall.output ∉ ops.map Spec.Op.call := by
      intro hm
      rw [List.mem_map] at hm
      obtain ⟨o, _, ho⟩ := hm
      cases o <;> cases ho
    rcases List.eq_nil_or_concat post with rfl | ⟨rest, last, rfl⟩
    · cases j2
      rw [c3]
      exact Nat.zero_le _
    · rw [List.concat_eq_append] at hcalls j2
      rw [← List.append_assoc] at hcalls
      obtain ⟨h1, h2⟩ := List.append_inj' hcalls rfl
      have h2 : last = .output := List.singleton_inj.1 h2
      subst h2
      have hrest : CoderCall.output ∉ rest := fun hm => hno (by rw [← h1]; exact List.mem_append_right _ hm)
      have hpre : CoderCall.output ∉ pre := fun hm => hno (by rw [← h1]; exact List.mem_append_left _ hm)
      obtain ⟨o3, w5, o4, l1, l2, l3⟩ := Writer.calls_split rest [.output] j2
      have m1 := Writer.calls_inStrings rest hrest l1
      have m2 := Writer.calls_inStrings pre hpre j1
      have hout : w5.output = .ok (o4, Encoder.chunkWriter (Encoder.new engine flags matching) m data) := by
        simp only [Writer.calls, Writer.call] at l2
        cases hw : w5.output with
        | error f => rw [hw] at l2; cases l2
        | ok p =>
          rw [hw] at l2
          simp only [Except.map, Except.ok.injEq, Prod.mk.injEq, List.append_nil] at l2
          rw [← l2.1, ← l2.2]
      have hwin : Encoder.window (Encoder.new engine flags matching) m data = o4 := by
        rw [j3, m2.2, l3, m1.2]; rfl
      rw [hwin] at k3 k4
      have hnil : o4 ≠ [] := by
        rintro rfl
        obtain ⟨R, _⟩ := k4
        have := R.bytes
        simp at this
      have := Writer.output_inStrings hout hnil
      omega

/-- A program with two dictionaries and two encoders meets the hypotheses; after it, 16 bytes of the dictionary and its tables are stored. -/
example :
    let ops : List Op := [.dictionary (List.replicate 16 7), .dictionary [1], .encoder 0 0 true, .encoder 0 4 true, .init 0, .init 1,
      .deleteDictionary 1, .call 0 .start, .call 1 .start, .call 1 (.chunk [65, 66]), .call 1 .start]
    obeyed [] [] ops = true ∧ existing ops (World.run {} ops).2.2 = [List.replicate 16 7] ∧
      stored (World.run {} ops).2.2 = 16 + 4 * (8 + 1 + 1) + 1 := by
  decide +kernel

end Vcd.Props
