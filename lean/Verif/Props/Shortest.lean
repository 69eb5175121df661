import Verif.Proof.Shortest
import Verif.Props.Encoder

/-!
# C65: windows are as short as their instructions allow
-/

namespace Vcd
open Spec

theorem noTight_of_long {ops : List Op} (h : ∀ pre a n post, ops = pre ++ .copy a n :: post → 32 ≤ n) : ¬ TightPair ops := by
  rintro ⟨front, bs, a, n, rest, e, _, hn⟩
  have := h (front ++ [.add bs]) a n rest (by rw [e]; simp)
  omega

theorem oneByte {b : UInt8} (h : b.toNat < 128) : IsVarint [b] := ⟨[], b, rfl, by simp, by simp only [continues]; omega⟩

namespace Props

/-- C65, the writer. Whatever instructions a writer with the default code table is given between `Init` and `Output`, and in
either layout, the window it outputs has those instructions in it, with certain modes for the COPYs, and no window with the same
source segment, instructions, layout and checksum is shorter in which the COPYs have those modes. If no ADD of up to 4 bytes is
directly followed by a COPY of 5 or 6, none is shorter whatever the modes of its COPYs. (`same_cache_costs_a_byte` is why there is
this condition.) -/
theorem writer_window_shortest (interleaved : Bool) (checksum : Option Nat) (hck : ∀ v, checksum = some v → v < 2 ^ 32)
    (d : Nat) (ops : List Op) (hne : ops ≠ []) (hops : Sensible d ops) (hlen : d + sizes ops < 2 ^ 31)
    (hlen' : sizes ops + 11 * ops.length + 26 < 2 ^ 31) :
    ∃ w out modes, (Writer.new interleaved).init d = .ok (true, w) ∧
      let w := checksum.elim w w.addChecksum
      w.calls (ops.map Op.call ++ [.output]) = .ok (out, w) ∧
      WindowWith d interleaved checksum ops modes out ∧
      ∀ modes' W, WindowWith d interleaved checksum ops modes' W → (modes' = modes ∨ ¬ TightPair ops) →
        out.length ≤ W.length := by
  obtain ⟨m, u⟩ := Encoder.usable
  obtain ⟨w, k1, k2, k3, k4⟩ := Writer.init_ready u
    (w := Writer.new interleaved) d rfl rfl (Or.inl rfl) (Or.inl rfl) rfl rfl rfl
  have hcost := Writer.costs_le ops
  have hr : Writer.Ready defaultCoding 8 m d (checksum.elim w w.addChecksum) := by
    cases checksum
    · exact k4
    · exact k4.addChecksum _
  have e1 : (checksum.elim w w.addChecksum).interleaved = interleaved := by
    cases checksum <;> exact k2
  have e2 : (checksum.elim w w.addChecksum).checksum = checksum := by
    cases checksum
    · exact k3
    · rfl
  obtain ⟨out, modes, j1, j2, j3⟩ := Writer.window_shortest u hne hr (hops.writableAll (by simp only [int32Max]; omega))
    (by simp only [int32Max]; omega) (by simp only [int32Max]; omega) (by rw [e2]; exact hck)
  rw [e1, e2] at j2 j3
  exact ⟨w, out, modes, k1, j1, j2, j3⟩

/-- C65, the encoder. The window for a chunk has the instructions that the engine finds for it, and no window with the same
source segment, instructions, layout and checksum is shorter. -/
theorem encoder_windows_shortest (dict : Bytes) (hdict : dict.length < 2 ^ 31) (flags : Nat) (hb : flags &&& 4 = 0)
    (matching : Bool) :
    ∃ engine window, Engine.init dict = .ok (some engine) ∧
      (∀ cs, EachChunk (fun data => dict.length + data.length < 2 ^ 31 ∧ data.length + 64 < 2 ^ 31) cs →
        ∃ e', (Encoder.new engine flags matching).calls cs =
          .ok (protocol (Writer.header flags) window false cs, e')) ∧
      ∀ data, data ≠ [] → dict.length + data.length < 2 ^ 31 → data.length + 64 < 2 ^ 31 →
        ∃ ops modes, engine.encode matching data = .ok (ops.map Op.call ++ [.output]) ∧ execOps dict ops = dict ++ data ∧
          let checksum := if flags &&& 2 = 0 then none else some (adlerOf data)
          WindowWith dict.length (flags &&& 1 != 0) checksum ops modes (window data) ∧
          ∀ modes' W, WindowWith dict.length (flags &&& 1 != 0) checksum ops modes' W → (window data).length ≤ W.length := by
  obtain ⟨engine, hashed, h1, h2, _⟩ := Engine.init_ok (dict := dict) (by simp only [int32Max]; omega)
  have hd : engine.dictionary = dict := by rw [h2]
  obtain ⟨m, u⟩ := Encoder.usable
  refine ⟨engine, Encoder.window (Encoder.new engine flags matching) m, h1, ?_, ?_⟩
  · intro cs hs
    obtain ⟨e', k1, _⟩ := Encoder.calls_ok (e0 := Encoder.new engine flags matching) (dict := dict) u h1 hd
      (Encoder.new_inv hb m) hs
    exact ⟨e', k1⟩
  · intro data hne hs1 hs2
    have hr : Writer.Ready defaultCoding 8 m dict.length (Encoder.chunkWriter (Encoder.new engine flags matching) m data) := by
      have := Encoder.chunkWriter_always_ready (e0 := Encoder.new engine flags matching) u data
      simp only [Encoder.new, hd] at this ⊢
      exact this
    obtain ⟨e, ops, k1, k2, k3, k4⟩ := Engine.encode_whole (dict := dict) (target := data) (matching := matching)
      (by simp only [int32Max]; omega) hne
    rw [h1] at k1
    injection k1 with k1
    injection k1 with k1
    subst k1
    obtain ⟨hsens, hcost⟩ := Whole.sensible k4
    have hnil : ops ≠ [] := by
      rintro rfl
      have := k4.exec
      simp [execOps] at this
      exact hne this
    have hT : data.length = sizes ops := by
      have := execOps_length ops dict
      rw [k4.exec, List.length_append] at this; omega
    have e1 : (Encoder.chunkWriter (Encoder.new engine flags matching) m data).checksum =
        if flags &&& 2 = 0 then none else some (adlerOf data) := by
      simp only [Encoder.chunkWriter, Encoder.new]
      by_cases h : flags &&& 2 = 0 <;> simp [h, computeAdler32_eq data (by omega)]
    have e2 : (Encoder.chunkWriter (Encoder.new engine flags matching) m data).interleaved = (flags &&& 1 != 0) := rfl
    obtain ⟨out, modes, j1, j2, j3⟩ := Writer.window_shortest u hnil hr (hsens.writableAll (by simp only [int32Max]; omega))
      (by simp only [int32Max]; omega) (by simp only [int32Max]; omega) (by
        rw [e1]
        intro v hv
        split at hv
        · cases hv
        · injection hv with hv
          rw [← hv]
          exact Writer.adlerOf_lt data)
    rw [e1, e2] at j2 j3
    have hout : Encoder.window (Encoder.new engine flags matching) m data = out := by
      have : (Encoder.new engine flags matching).engine.encode (Encoder.new engine flags matching).lookForTargetMatches data =
        .ok (ops.map Op.call ++ [.output]) := k3
      simp only [Encoder.window, this, j1]
    refine ⟨ops, modes, k3, k4.exec, ?_⟩
    rw [hout]
    refine ⟨j2, fun modes' W hW => j3 modes' W hW (Or.inr (noTight_of_long fun pre a n post e => ?_))⟩
    have := k4.emittable pre _ post e
    exact this.1

/-- What the windows are that these are compared with: every window of the format that has a source segment is one. -/
theorem window_has_instructions (s : Settings) (dict prev w T : Bytes) (h : WindowCode defaultCoding true rfc s dict prev w T)
    (hsrc : ∀ b, w.head? = some b → b &&& 3 ≠ 0) :
    ∃ src interleaved checksum ops modes, execOps src ops = src ++ T ∧
      WindowWith src.length interleaved checksum ops modes w := by
  obtain @⟨ind, di, seg, src, dlb, tlen, dlenb, ilenb, alenb, cks, data, inst, addr, _, items, ops, surplus, source, program, _,
    exec, _, _, sections, noSurplus, tl, _, dlen, ilen, alen, ck, dl, _, _⟩ := h
  have h0 : surplus = 0 := noSurplus.resolve_right (fun h => by simp [rfc] at h)
  subst h0
  have hind : ind &&& 3 ≠ 0 := hsrc ind (by simp)
  have hseg : ∃ lb pb, seg = lb ++ pb ∧ IsVarint lb ∧ varintValue lb = src.length ∧ IsVarint pb := by
    cases source with
    | none h => exact absurd h hind
    | @dict lb pb len pos h1 h2 h3 h4 => exact ⟨lb, pb, rfl, h2.1, by rw [h2.2.1]; simp; omega, h3.1⟩
    | @target lb pb len pos h1 h2 h3 h4 h5 => exact ⟨lb, pb, rfl, h3.1, by rw [h3.2.1]; simp; omega, h4.1⟩
  have hT : T.length = sizes ops := by
    have := execOps_length ops src
    rw [exec, List.length_append] at this; omega
  let checksum : Option Nat := if ind &&& 4 = 0 then none else some (adlerOf T)
  let il : Bool := decide (data = [] ∧ addr = [])
  have hck : ChecksumField checksum cks := by
    by_cases hb : ind &&& 4 = 0
    · simp only [checksum, if_pos hb, ChecksumField]
      simpa [ChecksumCode, hb] using ck
    · simp only [checksum, if_neg hb, ChecksumField]
      simpa [ChecksumCode, hb] using ck
  obtain ⟨lb, pb, g1, g2, g3, g4⟩ := hseg
  refine ⟨src, il, checksum, ops, copyModes defaultTable items, exec,
    Reading.mk ind seg dlb tlen di dlenb ilenb alenb cks (data ++ inst ++ addr) (by simp [List.append_assoc])
      (fun h => absurd h hind) (fun _ => ⟨lb, pb, g1, g2, g4⟩) dl.1 tl.1 dlen.1 ilen.1 alen.1,
    items, data, inst, addr, hind, ⟨lb, pb, g1, g2, g3, g4⟩, program, rfl, rfl, ?_, ?_, dlen.2.1, ilen.2.1, alen.2.1, hck, ?_, ?_⟩
  · simp only [SectionCode, true_and] at sections
    by_cases hz : data = [] ∧ addr = []
    · rw [if_pos hz] at sections
      simp only [il, decide_eq_true hz, if_true]
      exact ⟨hz.1, hz.2, sections⟩
    · rw [if_neg hz] at sections
      simp only [il, decide_eq_false hz, Bool.false_eq_true, if_false]
      exact sections
  · show varintValue tlen = _
    rw [← hT]; exact tl.2.1
  · show ind &&& 4 ≠ 0 ↔ checksum.isSome = true
    by_cases hb : ind &&& 4 = 0 <;> simp [checksum, hb]
  · show varintValue dlb = (tlen ++ [di] ++ dlenb ++ ilenb ++ alenb ++ cks).length + (data ++ inst ++ addr).length
    rw [dl.2.1]
    simp only [List.length_append]
    omega

/-- Instances: instructions of all three kinds; the first two share an opcode, and so do the last two. -/
example : let ops : List Op := [.add [0x78], .copy 0 4, .run 0x2E 300, .copy 306 4, .add [1]]
    Sensible 4 ops ∧ ¬ TightPair ops ∧
    ((Writer.new true).init 4).toOption.bind (fun r => (r.2.calls (ops.map Op.call ++ [.output])).toOption.map Prod.fst)
      = some [1, 4, 0, 16, 0x82, 0x36, 0, 0, 10, 0, 235, 0x78, 0, 0, 0x82, 0x2C, 0x2E, 248, 3, 1] := by
  refine ⟨?_, ?_, by decide +kernel⟩
  · intro pre o post e
    match pre, e with
    | [], e => simp at e; rw [← e.1]; simp [Op.size]
    | [_], e => simp at e; rw [← e.2.1]; simp [Op.size]; omega
    | [_, _], e => simp at e; rw [← e.2.2.1]; simp [Op.size]
    | [_, _, _], e => simp at e; rw [← e.2.2.2.1]; simp [Op.size, sizes, ← e.1, ← e.2.1, ← e.2.2.1]
    | [_, _, _, _], e => simp at e; rw [← e.2.2.2.2.1]; simp [Op.size]
    | _ :: _ :: _ :: _ :: _ :: _, e => simp at e
  · rintro ⟨front, bs, a, n, rest, e, _, hn⟩
    match front, e with
    | [], e => simp at e; omega
    | [_], e => simp at e
    | [_, _], e => simp at e
    | [_, _, _], e => simp at e
    | [_, _, _, _], e => simp at e
    | _ :: _ :: _ :: _ :: _ :: _, e => simp at e

/-- Against C65 without its condition: for an ADD of one byte and a COPY of five from the start of the dictionary the writer
takes the SAME cache for the address, as its one byte is no more than any other mode needs, and so needs an opcode for each
of the two instructions; with mode SELF they would share one, and the window would be a byte shorter. -/
theorem same_cache_costs_a_byte :
    ∃ out W : Bytes, ((Writer.new false).init 10).toOption.bind
        (fun r => (r.2.calls [.add [7], .copy 0 5, .output]).toOption.map Prod.fst) = some out ∧
      WindowWith 10 false none [.add [7], .copy 0 5] [0] W ∧ W.length < out.length := by
  refine ⟨[1, 10, 0, 9, 6, 0, 1, 2, 1, 7, 2, 117, 0], [1, 10, 0, 8, 6, 0, 1, 1, 1, 7, 164, 0], by decide +kernel, ?_, by decide⟩
  refine ⟨Reading.mk 1 [10, 0] [8] [6] 0 [1] [1] [1] [] [7, 164, 0] rfl (by decide)
    (fun _ => ⟨[10], [0], rfl, oneByte (by decide), oneByte (by decide)⟩) (oneByte (by decide)) (oneByte (by decide)) (oneByte (by decide))
    (oneByte (by decide)) (oneByte (by decide)), [.opcode 164, .size [], .data [7], .size [], .address [0]], [7], [164], [0], by decide,
    ⟨[10], [0], rfl, oneByte (by decide), by decide, oneByte (by decide)⟩, ?_, by decide +kernel, rfl, ?_, by decide, by decide, by decide,
    by decide, rfl, by decide, by decide⟩
  · have h1 : HalfCode defaultCoding [] 10 (defaultCoding.table.first 164) [.size [], .data [7]] [.add [7]] :=
      .add (by decide +kernel) (Or.inr ⟨by decide +kernel, rfl, by decide +kernel⟩)
    have h2 : HalfCode defaultCoding ([] ++ addrs [.add [7]]) (10 + sizes [.add [7]]) (defaultCoding.table.second 164)
        [.size [], .address [0]] [.copy 0 5] := by
      refine .copy (by decide +kernel) (Or.inr ⟨by decide +kernel, rfl, by decide +kernel⟩) ?_ (by decide) (by decide)
      have : (defaultCoding.table.second 164).mode.toNat = 0 := by decide +kernel
      rw [this]
      exact .self (oneByte (by decide)) (by decide)
    exact .cons h1 h2 .nil
  · simp [Item.dataBytes, Item.inst, Item.addr]

end Props
end Vcd
