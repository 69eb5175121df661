import Verif.Spec.Exec
import Verif.Model.Decoder

/-!
# Execution of single instructions
-/

namespace Vcd
open Spec

/-! ### `extend` -/

theorem extend_length (u : Bytes) (a n : Nat) : (extend u a n).length = u.length + n := by
  induction n generalizing u a with
  | zero => rfl
  | succ n ih => rw [extend, ih]; simp; omega

theorem extend_add (u : Bytes) (a m n : Nat) :
    extend u a (m + n) = extend (extend u a m) (a + m) n := by
  induction m generalizing u a with
  | zero => simp [extend]
  | succ m ih =>
    rw [show m + 1 + n = (m + n) + 1 by omega, extend, ih, extend]
    rw [show a + 1 + m = a + (m + 1) by omega]

/-- Copying a block that exists already. -/
theorem extend_block (u : Bytes) (a m : Nat) (h : a + m ≤ u.length) :
    extend u a m = u ++ (u.drop a).take m := by
  induction m generalizing u a with
  | zero => simp [extend]
  | succ m ih =>
    rw [extend, ih (u ++ [u.getD a 0]) (a + 1) (by simp; omega), List.append_assoc]
    congr 1
    have ha : a < u.length := by omega
    have h1 : u.drop a = u.getD a 0 :: u.drop (a + 1) := by
      rw [List.drop_eq_getElem_cons ha]
      simp [List.getD, ha]
    rw [h1, List.take_succ_cons, List.singleton_append]
    congr 1
    rw [List.drop_append_of_le_length (by omega), List.take_append_of_le_length (by simp; omega)]

theorem extend_take (u : Bytes) (a n : Nat) : (extend u a n).take u.length = u := by
  induction n generalizing u a with
  | zero => simp [extend]
  | succ n ih =>
    rw [extend]
    have := congrArg (List.take u.length) (ih (u ++ [u.getD a 0]) (a + 1))
    rw [List.take_take, List.take_append_of_le_length (Nat.le_refl _)] at this
    simpa using this

/-- The bytes a COPY appends. -/
def copied (u : Bytes) (a n : Nat) : Bytes := (extend u a n).drop u.length

theorem extend_eq (u : Bytes) (a n : Nat) : extend u a n = u ++ copied u a n := by
  conv => lhs; rw [← List.take_append_drop u.length (extend u a n), extend_take]
  rfl

@[simp] theorem copied_length (u : Bytes) (a n : Nat) : (copied u a n).length = n := by
  rw [copied, List.length_drop, extend_length]; omega

theorem copied_add (u : Bytes) (a m n : Nat) :
    copied u a (m + n) = copied u a m ++ copied (u ++ copied u a m) (a + m) n := by
  have h := extend_add u a m n
  rw [extend_eq, extend_eq u a m, extend_eq] at h
  simpa [List.append_assoc] using h

theorem copied_block (u : Bytes) (a m : Nat) (h : a + m ≤ u.length) :
    copied u a m = (u.drop a).take m := by
  have := extend_block u a m h
  rw [extend_eq] at this
  exact List.append_cancel_left this

/-! ### Arithmetic of sizes -/

theorem szSub_eq {a b : Nat} (h : b ≤ a) : szSub a b = a - b := by simp [szSub, h]

theorem toInt32_of_lt {n : Nat} (h : n ≤ 2147483647) : toInt32 n = (n : Int) := by
  have : n % 4294967296 = n := Nat.mod_eq_of_lt (by omega)
  rw [toInt32, this, if_pos (by omega)]

theorem toInt32_neg {n : Nat} (h : 2147483647 < n) (h2 : n < 4294967296) : toInt32 n < 0 := by
  have : n % 4294967296 = n := Nat.mod_eq_of_lt h2
  rw [toInt32, this, if_neg (by omega)]
  omega

theorem targetBytesDecoded_eq {startPos : Nat} {decoded : Bytes} (h : startPos ≤ decoded.length) :
    Level.targetBytesDecoded startPos decoded = decoded.length - startPos := szSub_eq h

/-! ### The copy loop -/

theorem appendTarget_ok {env : BodyEnv} {decoded bytes : Bytes}
    (h : decoded.length + bytes.length ≤ env.startPos + env.hdr.targetLen) :
    appendTarget env decoded bytes = .ok (decoded ++ bytes) := by
  rw [appendTarget, if_neg (by simp only [BodyEnv.reserved]; omega)]

theorem readRange_ok {buf : Bytes} {pos size : Nat} (h : pos + size ≤ buf.length) :
    readRange buf pos size = .ok ((buf.drop pos).take size) := by
  rw [readRange, if_neg (by omega)]

/-- The loop of `DecodeCopy` copies as the RFC says, without a fault. -/
theorem copyTarget_eq {env : BodyEnv} (fuel : Nat) (src pre win : Bytes) (address size : Nat)
    (hpre : pre.length = env.startPos) (ha : address < win.length)
    (hsize : win.length + size ≤ env.hdr.targetLen) (hf : size < fuel) :
    copyTarget env fuel (pre ++ win) address win.length size
      = .ok (pre ++ win ++ copied (src ++ win) (src.length + address) size) := by
  induction fuel generalizing win address size with
  | zero => omega
  | succ fuel ih =>
    rw [copyTarget, szSub_eq (by omega)]
    by_cases h : size > win.length - address
    · rw [if_pos h]
      have hr : readRange (pre ++ win) (env.startPos + address) (win.length - address)
          = .ok (win.drop address) := by
        rw [readRange_ok (by simp; omega), ← hpre, List.drop_append]
        congr 1
        have : pre.drop (pre.length + address) = [] := List.drop_eq_nil_of_le (by omega)
        rw [this, List.nil_append, show pre.length + address - pre.length = address by omega]
        exact List.take_of_length_le (by simp)
      have hl : (win.drop address).length = win.length - address := by simp
      simp only [hr, bind, Except.bind]
      rw [appendTarget_ok (by simp; omega)]
      simp only []
      have hb : copied (src ++ win) (src.length + address) (win.length - address)
          = win.drop address := by
        rw [copied_block _ _ _ (by simp; omega), List.drop_append]
        have : src.drop (src.length + address) = [] := List.drop_eq_nil_of_le (by omega)
        rw [this, List.nil_append, show src.length + address - src.length = address by omega]
        exact List.take_of_length_le (by simp)
      have := ih (win ++ win.drop address) (address + (win.length - address))
        (size - (win.length - address)) (by simp; omega) (by simp; omega) (by omega)
      rw [List.length_append, hl] at this
      rw [List.append_assoc pre win, this]
      have hs : size = (win.length - address) + (size - (win.length - address)) := by omega
      conv => rhs; rw [hs, copied_add, hb]
      simp [List.append_assoc, Nat.add_assoc]
    · rw [if_neg h]
      have hr : readRange (pre ++ win) (env.startPos + address) size
          = .ok ((win.drop address).take size) := by
        rw [readRange_ok (by simp; omega), ← hpre, List.drop_append]
        have : pre.drop (pre.length + address) = [] := List.drop_eq_nil_of_le (by omega)
        rw [this, List.nil_append, show pre.length + address - pre.length = address by omega]
      simp only [hr, bind, Except.bind]
      rw [appendTarget_ok (by simp; omega)]
      congr 1
      congr 1
      rw [copied_block _ _ _ (by simp; omega), List.drop_append]
      have : src.drop (src.length + address) = [] := List.drop_eq_nil_of_le (by omega)
      rw [this, List.nil_append, show src.length + address - src.length = address by omega]

/-- What stays true while a window is being decoded. -/
structure WinInv (env : BodyEnv) (decoded : Bytes) : Prop where
  src : env.hdr.source.length = env.hdr.srcLen
  srcLe : env.hdr.srcLen ≤ 2147483647
  tgtLe : env.hdr.targetLen ≤ 2147483647
  start : env.startPos ≤ decoded.length
  room : decoded.length ≤ env.startPos + env.hdr.targetLen

/-- The string copies are taken from: source segment, then target window so far. -/
def BodyEnv.super (env : BodyEnv) (decoded : Bytes) : Bytes :=
  env.hdr.source ++ decoded.drop env.startPos

theorem WinInv.super_length {env : BodyEnv} {decoded : Bytes} (h : WinInv env decoded) :
    (env.super decoded).length = env.hdr.srcLen + (decoded.length - env.startPos) := by
  simp [BodyEnv.super, h.src]

theorem WinInv.super_append {env : BodyEnv} {decoded : Bytes} (h : WinInv env decoded)
    (bytes : Bytes) : env.super (decoded ++ bytes) = env.super decoded ++ bytes := by
  simp only [BodyEnv.super, List.drop_append_of_le_length h.start, List.append_assoc]

theorem WinInv.append {env : BodyEnv} {decoded : Bytes} (h : WinInv env decoded)
    (bytes : Bytes) (hb : decoded.length + bytes.length ≤ env.startPos + env.hdr.targetLen) :
    WinInv env (decoded ++ bytes) where
  src := h.src
  srcLe := h.srcLe
  tgtLe := h.tgtLe
  start := by have := h.start; simp; omega
  room := by simp; omega

/-- The copying part of `DecodeCopy` does what the RFC says, without a fault. -/
theorem copyBytes_eq {env : BodyEnv} {decoded : Bytes} (h : WinInv env decoded)
    {address size : Nat} (ha : address < env.hdr.srcLen + (decoded.length - env.startPos))
    (hsize : size + (decoded.length - env.startPos) ≤ env.hdr.targetLen) :
    copyBytes env decoded (decoded.length - env.startPos) address size
      = .ok (decoded ++ copied (env.super decoded) address size) := by
  have hroom := h.room
  have hstart := h.start
  have hsrc := h.src
  have hdec : decoded = decoded.take env.startPos ++ decoded.drop env.startPos :=
    (List.take_append_drop _ _).symm
  have hpre : (decoded.take env.startPos).length = env.startPos := by simp; omega
  have hwin : (decoded.drop env.startPos).length = decoded.length - env.startPos := by simp
  rw [copyBytes]
  by_cases h1 : address + size ≤ env.hdr.srcLen
  · rw [if_pos h1, readRange_ok (by omega)]
    simp only [bind, Except.bind]
    rw [appendTarget_ok (by simp; omega)]
    congr 2
    rw [copied_block _ _ _ (by rw [h.super_length]; omega), BodyEnv.super,
      List.drop_append_of_le_length (by omega), List.take_append_of_le_length (by simp; omega)]
  rw [if_neg h1]
  by_cases h2 : address < env.hdr.srcLen
  · rw [if_pos h2]
    dsimp only
    rw [readRange_ok (by omega)]
    simp only [bind, Except.bind]
    rw [appendTarget_ok (by simp; omega)]
    simp only []
    have htake : (env.hdr.source.drop address).take (env.hdr.srcLen - address)
        = env.hdr.source.drop address := List.take_of_length_le (by simp; omega)
    rw [htake]
    have hblock : copied (env.super decoded) address (env.hdr.srcLen - address)
        = env.hdr.source.drop address := by
      rw [copied_block _ _ _ (by rw [h.super_length]; omega), BodyEnv.super,
        List.drop_append_of_le_length (by omega), List.take_append_of_le_length (by simp; omega),
        htake]
    have := copyTarget_eq (env := env) (size - (env.hdr.srcLen - address) + 1) env.hdr.source
      (decoded.take env.startPos) (decoded.drop env.startPos ++ env.hdr.source.drop address) 0
      (size - (env.hdr.srcLen - address)) hpre (by simp; omega) (by simp; omega) (by omega)
    rw [← List.append_assoc, ← hdec] at this
    simp only [List.length_append, hwin, List.length_drop, hsrc] at this
    rw [this]
    have hs : size = (env.hdr.srcLen - address) + (size - (env.hdr.srcLen - address)) := by omega
    conv => rhs; rw [hs, copied_add, hblock]
    rw [show address + (env.hdr.srcLen - address) = env.hdr.srcLen by omega]
    simp [BodyEnv.super, List.append_assoc]
  · rw [if_neg h2]
    have := copyTarget_eq (env := env) (size + 1) env.hdr.source
      (decoded.take env.startPos) (decoded.drop env.startPos) (address - env.hdr.srcLen)
      size hpre (by simp; omega) (by simp; omega) (by omega)
    rw [← hdec, hwin] at this
    rw [this, hsrc, show env.hdr.srcLen + (address - env.hdr.srcLen) = address by omega]
    rfl

/-! ### Lists of instructions -/

theorem execOps_length (ops : List Op) (u : Bytes) : (execOps u ops).length = u.length + sizes ops := by
  induction ops generalizing u with
  | nil => simp [execOps, sizes]
  | cons o ops ih =>
    have : execOps u (o :: ops) = execOps (o.apply u) ops := rfl
    rw [this, ih]
    have : (o.apply u).length = u.length + o.size := by
      cases o with
      | add bs => simp [Op.apply, Op.size]
      | run b n => simp [Op.apply, Op.size]
      | copy a n => simp [Op.apply, Op.size, extend_eq]
    rw [this]
    simp [sizes]; omega

theorem execOps_prefix (u : Bytes) (ops : List Op) : u <+: execOps u ops := by
  induction ops generalizing u with
  | nil => exact List.prefix_rfl
  | cons op ops ih =>
    have h1 : u <+: Op.apply u op := by
      cases op with
      | add s => exact List.prefix_append _ _
      | run b n => exact List.prefix_append _ _
      | copy a n =>
        simp only [Op.apply]
        induction n generalizing u a with
        | zero => exact List.prefix_rfl
        | succ n ih' => exact (List.prefix_append _ _).trans (ih' _ _)
    exact h1.trans (ih (Op.apply u op))

end Vcd
