import Verif.Model.Basic

/-! Facts about bytes and bit masks. -/

namespace Vcd

/-- To prove something about every byte, prove it about the 256 values. -/
theorem forall_byte {p : UInt8 → Prop} (h : ∀ n : Fin 256, p (UInt8.ofFin n)) (b : UInt8) : p b := by
  have := h b.toFin
  simpa using this

theorem byte_lt (b : UInt8) : b.toNat < 256 := UInt8.toNat_lt b

theorem and_7F (b : UInt8) : (b &&& 0x7F).toNat = b.toNat % 128 := by
  revert b; apply forall_byte; decide +kernel

theorem and_80 (b : UInt8) : (b &&& 0x80 = 0) ↔ b.toNat < 128 := by
  revert b; apply forall_byte; decide +kernel

theorem or_80 (n : Nat) (h : n < 128) : n ||| 0x80 = n + 128 := by
  have : ∀ n : Fin 128, n.val ||| 0x80 = n.val + 128 := by decide +kernel
  exact this ⟨n, h⟩

theorem nat_and_7F (n : Nat) : n &&& 0x7F = n % 128 := by
  have := Nat.and_two_pow_sub_one_eq_mod n 7
  simpa using this

end Vcd
