import Verif.Proof.ReleaseUse
import Verif.Proof.Damage

/-!
# Dictionaries of 2^31 bytes and more
-/

namespace Vcd
namespace Release
open Spec

theorem toInt32_neg {n : Nat} (h1 : 2 ^ 31 ≤ n) (h2 : n < 2 ^ 32) : toInt32 n < 0 := by
  unfold toInt32; split <;> omega

theorem ok_of_agrees {α : Type} {d r : Except Fault α} (h : Agrees d r) {a : α} (e : d = .ok a) : r = .ok a := by
  rcases h with h | h
  · rw [h] at e; cases e
  · rw [h, e]

theorem ok_of_some {α : Type} {d : Except Fault α} {a : α} (e : d.toOption = some a) : d = .ok a := by
  cases d with
  | error f => cases e
  | ok b => simp only [Except.toOption, Option.some.injEq] at e; rw [e]

theorem sizeBytes_huge {n : Nat} (h1 : 2 ^ 31 ≤ n) (h2 : n < 2 ^ 32) : sizeBytes n = .ok [] := by
  unfold sizeBytes
  rw [encodeVarint, if_pos (toInt32_neg h1 h2)]

theorem sizeBytes_small {n : Nat} (h : n ≤ int32Max) :
    ∃ bs, sizeBytes n = .ok bs ∧ NumCode bs n ∧ bs.length ≤ 5 ∧ Writer.sizeLength n = bs.length := by
  obtain ⟨bs, h1, h2⟩ := Writer.sizeBytes_spec h
  exact ⟨bs, ok_of_agrees (sizeBytes_agrees n) h1, h2⟩

/-- With such a dictionary nothing is put into the hash table. -/
theorem create_huge {dict : Bytes} (h1 : 2 ^ 31 ≤ dict.length) (h2 : dict.length < 2 ^ 32) :
    ∃ bh, create dict 0 true = .ok (some bh) := by
  obtain ⟨j, hj, _, _⟩ := calcTableSize_spec dict.length (by simp only [size64]; omega)
  have h0 : calcTableSize dict.length ≠ 0 := by rw [hj]; exact Nat.ne_of_gt (Nat.two_pow_pos j)
  unfold create
  simp only [if_neg h0, if_true]
  generalize hb : BlockHash.mk dict 0 (List.replicate (calcTableSize dict.length) none)
    ((calcTableSize dict.length - 1) % 4294967296) (List.replicate (dict.length / kBlockSize) none)
    (List.replicate (dict.length / kBlockSize) none) 0 = bh
  have hs : bh.source = dict := by rw [← hb]
  have ha : bh.added = 0 := by rw [← hb]
  refine ⟨bh, ?_⟩
  have : addAllBlocksThroughIndex bh (toInt32 dict.length) = .ok bh := by
    unfold addAllBlocksThroughIndex
    rw [hs, ha, if_neg (by omega)]
    by_cases h3 : toInt32 dict.length ≤ ((0 : Nat) - 1 : Int) * kBlockSize
    · rw [if_pos h3]
    · rw [if_neg h3, if_neg (by simp only [kBlockSize]; omega)]
      have hn := toInt32_neg h1 h2
      have hl : toInt32 (dict.length - kBlockSize) < toInt32 dict.length := by
        simp only [kBlockSize] at h3 ⊢
        unfold toInt32 at h3 ⊢
        split <;> split at h3 <;> omega
      simp only [if_pos (show toInt32 dict.length > toInt32 (dict.length - kBlockSize) from hl), addBlocksLoop]
      rw [if_neg (by omega)]
  rw [this]; rfl

end Release

/-- A debug build exits when such a dictionary is initialised. -/
theorem Engine.initCall_huge {dict : Bytes} (h1 : 2 ^ 31 ≤ dict.length) (h2 : dict.length ≤ 2 ^ 32 - 16) :
    (⟨dict, none⟩ : Engine).initCall = .error .assertion := by
  obtain ⟨j, hj, _, _⟩ := calcTableSize_spec dict.length (by simp only [size64]; omega)
  have h0 : calcTableSize dict.length ≠ 0 := by rw [hj]; exact Nat.ne_of_gt (Nat.two_pow_pos j)
  have ht : toInt32 dict.length ≤ -16 := by unfold toInt32; split <;> omega
  have : BlockHash.create dict 0 true = .error .assertion := by
    unfold BlockHash.create
    simp only [if_neg h0, if_true, BlockHash.addAllBlocksThroughIndex]
    rw [if_neg (by omega), if_pos (by simp only [kBlockSize]; omega)]
    rfl
  rw [Engine.initCall]
  simp only [this]

namespace Release
open Spec

/-- The window written for a short chunk: the length of the source segment is missing. -/
theorem window_huge {m : InstructionMap} (u : Writer.Usable defaultCoding 8 m) {w : Writer} {n : Nat}
    (hr : Writer.Ready defaultCoding 8 m n w) (hil : w.interleaved = false) (hck : ∀ v, w.checksum = some v → v < 2 ^ 32)
    (h1 : 2 ^ 31 ≤ n) (h2 : n < 2 ^ 32) {data : Bytes} (hd : data ≠ []) (hs : data.length < 8) :
    ∃ (w' : Writer) (lb db rest : Bytes), writerCalls w [.add data, .output] =
        .ok ([if w.checksum.isSome then 0x05 else 0x01] ++ [0x00] ++ lb ++ db ++ [0x00] ++ db ++ rest, w') ∧
      IsVarint lb ∧ IsVarint db ∧ (∃ b, db = [b] ∧ b &&& 7 ≠ 0) := by
  have hpos : 0 < data.length := List.length_pos_iff.2 hd
  have heq := hr.eq
  have hlo : w.lastOpcode = none := by rw [heq]
  have hmp : w.map = some m := by rw [heq]
  have hin : w.inst = [] := by rw [heq]
  have hda : w.data = [] := by rw [heq]
  have had : w.addr = [] := by rw [heq]
  have htl : w.targetLength = 0 := by rw [heq]
  have hds : w.dictionarySize = n := by rw [heq]
  have hca : w.cache = AddrCache.ofHist 4 3 [] := by rw [heq]; rfl
  obtain ⟨op, x, sb, h, a1, a2, a3, _⟩ := Writer.lookupFirst_ok u (inst := vcdAdd) (size := data.length) (mode := 0)
    ⟨by decide, by decide, by omega, fun _ => rfl⟩ hpos (by simp only [int32Max]; omega)
  have henc : w.encodeInstruction vcdAdd data.length 0 = .ok { w with inst := [op] ++ sb, lastOpcode := some 0 } := by
    simp only [Writer.encodeInstruction, hmp, Writer.compound, hlo, a1, a2, Except.map, hin, List.length_nil, List.nil_append]
  have hadd : writerCall w (.add data) =
      .ok ([], { w with inst := [op] ++ sb, lastOpcode := some 0, data := data, targetLength := data.length }) := by
    simp only [writerCall, add, ok_of_agrees (encodeInstruction_agrees w vcdAdd data.length 0) henc, Except.map,
      Writer.appendData, hil, Bool.false_eq_true, if_false, Writer.advance, hda, htl, List.nil_append, Nat.zero_add]
  generalize hw2 : ({ w with inst := [op] ++ sb, lastOpcode := some 0, data := data, targetLength := data.length } : Writer) = w2
    at hadd
  have e1 : w2.dictionarySize = n := by rw [← hw2]; exact hds
  have e2 : w2.targetLength = data.length := by rw [← hw2]
  have e3 : w2.data = data := by rw [← hw2]
  have e4 : w2.inst = [op] ++ sb := by rw [← hw2]
  have e5 : w2.addr = [] := by rw [← hw2]; exact had
  have e6 : w2.checksum = w.checksum := by rw [← hw2]
  have e7 : w2.map = some m := by rw [← hw2]; exact hmp
  have e8 : w2.cache = AddrCache.ofHist 4 3 [] := by rw [← hw2]; exact hca
  obtain ⟨db, d1, d2, d3, d4⟩ := sizeBytes_small (n := data.length) (by simp only [int32Max]; omega)
  obtain ⟨ib, i1, i2, i3, i4⟩ := sizeBytes_small (n := ([op] ++ sb).length) (by simp [int32Max]; omega)
  obtain ⟨ab, b1, b2, b3, b4⟩ := sizeBytes_small (n := 0) (by simp [int32Max])
  have hcb : ∃ cb, Writer.checksumBytes w2.checksum = .ok cb ∧ Writer.checksumLength w2.checksum = cb.length ∧ cb.length ≤ 5 := by
    rw [e6]
    cases hc : w.checksum with
    | none => exact ⟨[], rfl, rfl, by simp⟩
    | some v =>
      obtain ⟨cb, c1, _, _, c4, c5⟩ := Writer.checksumBytes_spec (hck v hc)
      exact ⟨cb, c1, c5, c4⟩
  obtain ⟨cb, c1, c2, c3⟩ := hcb
  have hdl : w2.deltaLength ≤ int32Max := by
    simp only [Writer.deltaLength, e2, e3, e4, e5, d4, i4, b4, c2, List.length_nil]
    simp [int32Max]; omega
  obtain ⟨lb, l1, l2, _⟩ := sizeBytes_small hdl
  have hab : sizeBytes 0 = .ok [0x00] := ok_of_some (by decide +kernel)
  have c1' := c1
  rw [e6] at c1'
  have hwin : windowBytes w2 = .ok ([if w.checksum.isSome then 0x05 else 0x01] ++ [0x00] ++ lb ++ db ++ [0x00] ++ db ++
      (ib ++ ab ++ cb ++ data ++ ([op] ++ sb))) := by
    simp only [windowBytes, deltaBytes, bind, Except.bind, e1, sizeBytes_huge h1 h2, l1, e2, e3, d1, e4, i1, e5, c1', e6,
      List.length_nil, hab]
    rw [hab] at b1
    cases b1
    simp
  have hout : ∃ w', output w2 = .ok ([if w.checksum.isSome then 0x05 else 0x01] ++ [0x00] ++ lb ++ db ++ [0x00] ++ db ++
      (ib ++ ab ++ cb ++ data ++ ([op] ++ sb)), w') := by
    have hne : w2.inst ≠ [] := by rw [e4]; simp
    simp only [output, if_neg hne, hwin, Writer.init, e7, e8, AddrCache.init_ofHist]
    exact ⟨_, rfl⟩
  obtain ⟨w', hout⟩ := hout
  refine ⟨w', lb, db, ib ++ ab ++ cb ++ data ++ ([op] ++ sb), ?_, l2.1, d2.1, ?_⟩
  · simp only [writerCalls, hadd, show writerCall w2 .output = output w2 from rfl, hout, Except.map, List.nil_append, List.append_nil]
  · have : ∀ k : Fin 8, 0 < k.val → (sizeBytes k.val).toOption = some [UInt8.ofNat k.val] ∧ UInt8.ofNat k.val &&& 7 ≠ 0 := by
      decide +kernel
    obtain ⟨k1, k2⟩ := this ⟨data.length, hs⟩ hpos
    rw [ok_of_some k1] at d1
    exact ⟨_, by cases d1; rfl, k2⟩

/-- Such a window is no window of any delta file. -/
theorem window_refused {ind b : UInt8} (hi : ind &&& 3 = 1) {lb db rest : Bytes} (hl : IsVarint lb) (hv : IsVarint db)
    (hb : db = [b]) (hb7 : b &&& 7 ≠ 0) {c : Coding} {ext : Bool} {s : Settings} {dict prev w T r : Bytes}
    (h : WindowCode c ext library s dict prev w T)
    (e : w ++ r = [ind] ++ [0x00] ++ lb ++ db ++ [0x00] ++ db ++ rest) : False := by
  have hz : IsVarint ([0x00] : Bytes) := ⟨[], 0, rfl, by simp, by simp [continues]⟩
  cases h with
  | mk source program tight exec windowLimit fileLimit sections noSurplus targetLength deltaIndicator dataLength instLength
      addrLength checksum deltaLength copies caches =>
    simp only [List.append_assoc, List.cons_append, List.nil_append, List.cons.injEq] at e
    obtain ⟨e0, e⟩ := e
    rw [e0] at source
    cases source with
    | none hn => rw [hi] at hn; cases hn
    | target hn => rw [hi] at hn; cases hn
    | dict hn hlb hpb _ =>
      rw [List.append_assoc] at e
      obtain ⟨_, e⟩ := hlb.1.unique hz (show _ = [0x00] ++ _ from e)
      obtain ⟨_, e⟩ := hpb.1.unique hl e
      obtain ⟨_, e⟩ := deltaLength.1.unique hv e
      obtain ⟨_, e⟩ := targetLength.1.unique hz (show _ = [0x00] ++ _ from e)
      subst hb
      rw [(List.cons.inj e).1] at deltaIndicator
      exact hb7 deltaIndicator

end Release
end Vcd
