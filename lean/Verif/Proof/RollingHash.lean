import Verif.Model.RollingHash
import Verif.Spec.RollingHash

/-! # Lemmas about the rolling hash -/

namespace Vcd.RollingHash

open Spec

theorem modBase_toNat (x : UInt32) : (modBase x).toNat = x.toNat % 8388608 := by
  show (x &&& (kBase - 1)).toNat = _
  rw [UInt32.toNat_and]
  have : (kBase - 1).toNat = 2 ^ 23 - 1 := by decide
  rw [this, Nat.and_two_pow_sub_one_eq_mod]

theorem kMult_toNat : kMult.toNat = 257 := by decide

theorem byte_toNat (b : UInt8) : b.toUInt32.toNat = b.toNat := by simp

theorem hashStep_toNat (h : UInt32) (b : UInt8) :
    (hashStep h b).toNat = (h.toNat * 257 + b.toNat) % 8388608 := by
  rw [hashStep, modBase_toNat, UInt32.toNat_add, UInt32.toNat_mul, kMult_toNat, byte_toNat]
  omega

theorem polynomial_foldl (acc : Nat) (l : Bytes) :
    l.foldl (fun acc b => acc * 257 + b.toNat) acc = acc * 257 ^ l.length + polynomial l := by
  induction l generalizing acc with
  | nil => simp [polynomial]
  | cons b bs ih =>
    have e : polynomial (b :: bs) = b.toNat * 257 ^ bs.length + polynomial bs := by
      rw [polynomial, List.foldl_cons, ih, Nat.zero_mul, Nat.zero_add]
    rw [List.foldl_cons, ih, e, List.length_cons, Nat.pow_succ, Nat.add_mul, Nat.mul_assoc,
      Nat.mul_comm 257, Nat.add_assoc]

theorem polynomial_cons (b : UInt8) (l : Bytes) :
    polynomial (b :: l) = b.toNat * 257 ^ l.length + polynomial l := by
  rw [polynomial, List.foldl_cons, polynomial_foldl]; simp

theorem polynomial_snoc (l : Bytes) (b : UInt8) :
    polynomial (l ++ [b]) = polynomial l * 257 + b.toNat := by
  simp [polynomial, List.foldl_append]

theorem foldl_hashStep (h : UInt32) (l : Bytes) (hh : h.toNat < 8388608) :
    (l.foldl hashStep h).toNat = (l.foldl (fun acc b => acc * 257 + b.toNat) h.toNat) % 8388608 := by
  induction l generalizing h with
  | nil => simp [Nat.mod_eq_of_lt hh]
  | cons b bs ih =>
    rw [List.foldl_cons, ih _ (by rw [hashStep_toNat]; exact Nat.mod_lt _ (by decide)),
      List.foldl_cons, hashStep_toNat, polynomial_foldl, polynomial_foldl, Nat.add_mod, Nat.mul_mod,
      Nat.mod_mod, ← Nat.mul_mod, ← Nat.add_mod]

theorem hash_toNat (l : Bytes) (hl : 2 ≤ l.length) : (hash l).toNat = windowHash l := by
  match l, hl with
  | b0 :: b1 :: rest, _ =>
    have h0 := b0.toNat_lt
    have h1 := b1.toNat_lt
    have e : (b0.toUInt32 * kMult + b1.toUInt32).toNat = b0.toNat * 257 + b1.toNat := by
      rw [UInt32.toNat_add, UInt32.toNat_mul, kMult_toNat, byte_toNat, byte_toNat]; omega
    rw [hash, foldl_hashStep _ _ (by rw [e]; omega), e, windowHash, polynomial, List.foldl_cons,
      List.foldl_cons]
    simp

theorem multiplier_toNat (n : Nat) : (multiplier n).toNat = 257 ^ n % 8388608 := by
  induction n with
  | zero => decide
  | succ n ih =>
    rw [multiplier, modBase_toNat, UInt32.toNat_mul, kMult_toNat, ih,
      show 257 ^ (n + 1) = 257 ^ n * 257 from rfl]
    generalize 257 ^ n = p
    omega

theorem findModBaseInverse_toNat (x : UInt32) :
    ((findModBaseInverse x).toNat + x.toNat) % 8388608 = 0 := by
  rw [findModBaseInverse, modBase_toNat, UInt32.toNat_sub]
  have := x.toNat_lt
  simp only [UInt32.toNat_zero]
  omega

theorem removeTableLoop_getD (mult : UInt32) (n : Nat) (x : UInt32) (k : Nat) (hk : k < n) :
    (((removeTableLoop mult n x).getD k 0).toNat + (x.toNat + k * mult.toNat)) % 8388608 = 0 := by
  induction n generalizing x k with
  | zero => omega
  | succ n ih =>
    cases k with
    | zero =>
      simp only [removeTableLoop, List.getD_cons_zero, Nat.zero_mul, Nat.add_zero]
      exact findModBaseInverse_toNat x
    | succ k =>
      simp only [removeTableLoop, List.getD_cons_succ]
      have h := ih (modBase (x + mult)) k (by omega)
      rw [modBase_toNat, UInt32.toNat_add] at h
      rw [Nat.succ_mul]
      generalize k * mult.toNat = p at *
      omega

theorem updateHash_toNat (b : UInt8) (l : Bytes) (new : UInt8) (hl : 1 ≤ l.length) :
    (updateHash (l.length + 1) (hash (b :: l)) b new).toNat = windowHash (l ++ [new]) := by
  rw [updateHash, hashStep_toNat, removeFirstByte, modBase_toNat, UInt32.toNat_add,
    hash_toNat _ (by simp; omega), windowHash, windowHash, polynomial_snoc, polynomial_cons]
  have hr := removeTableLoop_getD (multiplier (l.length + 1 - 1)) 256 0 b.toNat b.toNat_lt
  rw [multiplier_toNat] at hr
  have e : (b.toNat * (257 ^ l.length % 8388608)) % 8388608 = (b.toNat * 257 ^ l.length) % 8388608 := by
    rw [Nat.mul_mod, Nat.mod_mod, ← Nat.mul_mod]
  simp only [Nat.add_sub_cancel, UInt32.toNat_zero, Nat.zero_add] at hr
  rw [removeTable, Nat.add_sub_cancel]
  generalize ((removeTableLoop (multiplier l.length) 256 0).getD b.toNat 0).toNat = r at *
  generalize b.toNat * 257 ^ l.length = p at *
  generalize b.toNat * (257 ^ l.length % 8388608) = q at *
  generalize polynomial l = t at *
  generalize new.toNat = n at *
  omega

theorem updateHash_eq (b : UInt8) (l : Bytes) (new : UInt8) (hl : 1 ≤ l.length) :
    updateHash (l.length + 1) (hash (b :: l)) b new = hash (l ++ [new]) := by
  apply UInt32.toNat_inj.1
  rw [updateHash_toNat _ _ _ hl, hash_toNat _ (by simp; omega)]

theorem hash_lt (l : Bytes) (hl : 2 ≤ l.length) : (hash l).toNat < 8388608 := by
  rw [hash_toNat l hl]; exact Nat.mod_lt _ (by decide)

end Vcd.RollingHash
