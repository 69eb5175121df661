import Verif.Spec.Varint

/-!
# Specification of the address cache (RFC 3284, section 5.1 and 5.3)

Everything is a function of the history: the list of COPY addresses used so far in the window,
oldest first.
-/

namespace Vcd.Spec

/-- NEAR slot `i` of `n`: the latest address whose position in the history is congruent to `i`
modulo `n`, or 0 if there is none. -/
def nearSlot (n : Nat) (hist : List Nat) (i : Nat) : Nat :=
  ((hist.zipIdx.filter (fun p => p.2 % n = i)).getLast?.map Prod.fst).getD 0

/-- SAME slot `j` of `256 * s`: the latest address congruent to `j` modulo `256 * s`, or 0 if there
is none. -/
def sameSlot (s : Nat) (hist : List Nat) (j : Nat) : Nat :=
  (hist.filter (fun a => a % (s * 256) = j)).getLast?.getD 0

/-- In a window with `n` NEAR slots and `s` SAME blocks, after the addresses of `hist`, at current
position `here`, the bytes `bs` under address mode `mode` denote the address `a`. -/
inductive AddrCode (n s : Nat) (hist : List Nat) (here : Nat) : Nat → Bytes → Nat → Prop
  /-- `VCD_SELF`: the address itself -/
  | self {bs a} : IsVarint bs → a = varintValue bs → AddrCode n s hist here 0 bs a
  /-- `VCD_HERE`: the distance back from the current position -/
  | here {bs a} : IsVarint bs → a + varintValue bs = here → AddrCode n s hist here 1 bs a
  /-- NEAR mode `2 + i`: an offset from NEAR slot `i` -/
  | near {i bs a} : i < n → IsVarint bs → a = nearSlot n hist i + varintValue bs →
      AddrCode n s hist here (2 + i) bs a
  /-- SAME mode `2 + n + i`: one byte, an index into the `i`-th block of SAME slots -/
  | same {i} {b : UInt8} {a} : i < s → a = sameSlot s hist (i * 256 + b.toNat) →
      AddrCode n s hist here (2 + n + i) [b] a

end Vcd.Spec
