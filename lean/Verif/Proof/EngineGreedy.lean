import Verif.Proof.Engine

/-! # What the engine sends literally -/

namespace Vcd
open Spec

theorem Op.call_inj {a b : Op} (h : a.call = b.call) : a = b := by
  cases a <;> cases b <;> simp_all [Op.call]
  omega

theorem map_call_inj : ∀ {a b : List Op}, a.map Op.call = b.map Op.call → a = b
  | [], [], _ => rfl
  | [], _ :: _, h => by simp at h
  | _ :: _, [], h => by simp at h
  | x :: a, y :: b, h => by
    simp only [List.map_cons, List.cons.injEq] at h
    rw [Op.call_inj h.1, map_call_inj h.2]

namespace Engine

/-- The instructions of an encode are those of `encode_whole`. -/
theorem encode_ops {dict target : Bytes} {matching : Bool} {e : Engine} {ops : List Op}
    (hlen : dict.length + target.length ≤ int32Max) (hi : Engine.init dict = .ok (some e))
    (he : e.encode matching target = .ok (ops.map Op.call ++ [.output])) : Whole dict target matching ops := by
  have hne : target ≠ [] := by
    rintro rfl
    obtain ⟨e', hashed, h1, rfl, _⟩ := init_ok (dict := dict) (by simp at hlen; omega)
    rw [hi] at h1
    cases h1
    rw [Engine.encode] at he
    simp at he
  obtain ⟨e', ops', h1, _, h3, h4⟩ := encode_whole (matching := matching) hlen hne
  rw [hi] at h1
  cases h1
  rw [he] at h3
  simp only [Except.ok.injEq, List.append_cancel_right_eq] at h3
  rw [map_call_inj h3]
  exact h4

theorem literals_mem (p : Nat) (pre : List Op) (lit : Bytes) (post : List Op) :
    (p + sizes pre, lit.length) ∈ literals p (pre ++ .add lit :: post) := by
  rw [literals_append]
  simp [literals]

/-- An ADD carries the bytes of the target at its position. -/
theorem Whole.literal {dict target : Bytes} {matching : Bool} {pre : List Op} {lit : Bytes} {post : List Op}
    (h : Whole dict target matching (pre ++ .add lit :: post)) :
    lit = (target.drop (sizes pre)).take lit.length ∧ sizes pre + lit.length ≤ target.length := by
  have e : execOps dict (pre ++ .add lit :: post) = execOps (execOps dict pre ++ lit) post := by
    simp [execOps, Op.apply]
  have hp := execOps_prefix (execOps dict pre ++ lit) post
  rw [← e, h.exec] at hp
  have hl := execOps_length pre dict
  obtain ⟨r, hr⟩ := hp
  obtain ⟨r', hr'⟩ := execOps_prefix dict pre
  rw [← hr'] at hr hl
  rw [List.append_assoc, List.append_assoc] at hr
  have := List.append_cancel_left hr
  rw [List.length_append] at hl
  have hl' : r'.length = sizes pre := by omega
  rw [← this, ← hl']
  simp

/-- With room in the search, 32 bytes of the dictionary are never sent. -/
theorem no_dictionary_piece {dict target : Bytes} {matching : Bool} {pre : List Op} {lit : Bytes} {post : List Op}
    (h : Whole dict target matching (pre ++ .add lit :: post))
    (hroom : ∀ b, (sharing dict (dict.length / 16) b).length ≤ 17) {i j : Nat} (hi : i + 32 ≤ lit.length)
    (hj : j + 32 ≤ dict.length) : (lit.drop i).take 32 ≠ (dict.drop j).take 32 := by
  intro heq
  obtain ⟨h1, h2⟩ := h.literal
  have hm := (h.noMiss (0 + sizes pre, lit.length) (literals_mem 0 pre lit post) (sizes pre + i + (16 * ((j + 15) / 16) - j))
    (by simp only; omega) (by simp only; omega) (by simp only [kBlockSize]; omega)).1 ((j + 15) / 16) j (sizes pre + i) 32
    (by omega) (Or.inl (hroom _)) (by simp only; omega) (by omega) ⟨hj, by omega, by omega, by omega, ?_⟩
  · omega
  · rw [← heq]
    conv => lhs; rw [h1]
    rw [List.drop_take, List.take_take, List.drop_drop, Nat.min_eq_left (by omega)]

theorem sharing_mono (data b : Bytes) {m n : Nat} (h : m ≤ n) : (sharing data m b).length ≤ (sharing data n b).length :=
  ((List.range_sublist.2 h).filter _).length_le

/-- Likewise for 32 bytes of the target that have come before. -/
theorem no_target_piece {dict target : Bytes} {pre : List Op} {lit : Bytes} {post : List Op}
    (h : Whole dict target true (pre ++ .add lit :: post))
    (hroom : ∀ b, (sharing target (target.length / 16) b).length ≤ 17) {i j : Nat} (hi : i + 32 ≤ lit.length)
    (hj : j < sizes pre + i) : (lit.drop i).take 32 ≠ (target.drop j).take 32 := by
  intro heq
  obtain ⟨h1, h2⟩ := h.literal
  have hm := (h.noMiss (0 + sizes pre, lit.length) (literals_mem 0 pre lit post) (sizes pre + i + (16 * ((j + 15) / 16) - j))
    (by simp only; omega) (by simp only; omega) (by simp only [kBlockSize]; omega)).2 rfl ((j + 15) / 16) j (sizes pre + i) 32
    (by omega) (Or.inl (Nat.le_trans (sharing_mono _ _ (by omega)) (hroom _))) (by simp only; omega) (by omega) ⟨by omega, by omega, by omega, by omega, ?_⟩
  · omega
  · rw [← heq]
    conv => lhs; rw [h1]
    rw [List.drop_take, List.take_take, List.drop_drop, Nat.min_eq_left (by omega)]

end Engine
end Vcd
