import Verif.Proof.RollingHash

/-!
# C26: the rolling hash
-/

namespace Vcd.Props
open Vcd Vcd.Spec
open Vcd.RollingHash hiding hash

/-- C26. For every window size of at least 2, every window and every next byte: updating the hash of the
window with the byte that leaves and the byte that enters gives the hash of the moved window. -/
theorem rolling_hash_update (window : Bytes) (old new : UInt8) (h : 1 ≤ window.length) :
    updateHash (window.length + 1) (RollingHash.hash (old :: window)) old new = RollingHash.hash (window ++ [new]) :=
  updateHash_eq old window new h

/-- C26. The hash is the value of the polynomial `b₀·257^(n-1) + … + b_(n-1)` modulo `2^23`, although
every step of the program is done in 32 bits. -/
theorem rolling_hash_value (window : Bytes) (h : 2 ≤ window.length) :
    (RollingHash.hash window).toNat = windowHash window := hash_toNat window h

/-- C26. Rolling over any data: starting from the hash of the first window and updating once for each
further byte, the value after `k` updates is the hash of the `k`-th window. -/
theorem rolling_hash_rolls (n : Nat) (hn : 2 ≤ n) (data : Bytes) :
    ∀ k, k + n ≤ data.length →
      (List.range k).foldl (fun h i => updateHash n h (data.getD i 0) (data.getD (i + n) 0)) (RollingHash.hash (data.take n))
        = RollingHash.hash ((data.drop k).take n) := by
  intro k
  induction k with
  | zero => intro _; simp
  | succ k ih =>
    intro hk
    rw [List.range_succ, List.foldl_append, ih (by omega)]
    simp only [List.foldl_cons, List.foldl_nil]
    have h1 : (data.drop k).take n = data.getD k 0 :: (data.drop (k + 1)).take (n - 1) := by
      rw [List.drop_eq_getElem_cons (by omega)]
      obtain ⟨m, rfl⟩ : ∃ m, n = m + 1 := ⟨n - 1, by omega⟩
      rw [List.take_succ_cons]
      simp [show k < data.length by omega]
    have h2 : (data.drop (k + 1)).take n = (data.drop (k + 1)).take (n - 1) ++ [data.getD (k + n) 0] := by
      obtain ⟨m, rfl⟩ : ∃ m, n = m + 1 := ⟨n - 1, by omega⟩
      rw [List.take_add_one, List.getElem?_drop, show k + 1 + m = k + (m + 1) by omega]
      simp [show k + (m + 1) < data.length by omega]
    have hl : ((data.drop (k + 1)).take (n - 1)).length + 1 = n := by
      rw [List.length_take, List.length_drop]; omega
    rw [h1, h2]
    have := updateHash_eq (data.getD k 0) ((data.drop (k + 1)).take (n - 1)) (data.getD (k + n) 0) (by omega)
    rwa [hl] at this

-- the windows "abcd" and "bcdé" (257 is the multiplier; 0xE9 is a byte above 127)
example : updateHash 4 (RollingHash.hash [97, 98, 99, 100]) 97 233 = RollingHash.hash [98, 99, 100, 233] ∧
    (RollingHash.hash [98, 99, 100, 233]).toNat = windowHash [98, 99, 100, 233] ∧
    RollingHash.hash [97, 98, 99, 100] ≠ RollingHash.hash [98, 99, 100, 233] := by decide +kernel

end Vcd.Props
