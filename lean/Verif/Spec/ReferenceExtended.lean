import Verif.Spec.Reference
import Verif.Spec.Adler

/-!
# Another decoder, for the format extensions

The decoder of `Spec.Reference`, picky or not, for delta files with version byte `'S'`. These have two extensions: a window whose
data and addresses sections are empty has all of its data and addresses in the instructions section, each behind the instruction it
belongs to; and with bit 2 of the window indicator, a checksum of the target follows the lengths of the sections.
-/

namespace Vcd.Spec.ReferenceExtended
open Reference

/-- A window that is being decoded and has a single section. -/
structure State where
  s : Bytes
  u : Bytes
  cache : Cache

/-- One instruction of an opcode. -/
def State.half (st : State) (t : Template) : Option State :=
  if t.1 = 0 then some st
  else do
    let (n, s) ← instructionSize t st.s
    if t.1 = 1 then
      if s.length < n then none
      else some { st with s := s.drop n, u := st.u ++ s.take n }
    else if t.1 = 2 then
      match s with
      | [] => none
      | b :: s => some { st with s, u := st.u ++ List.replicate n b }
    else do
      let (a, s) ← st.cache.address st.u.length t.2.2 s
      if st.u.length ≤ a then none
      else some { s, u := extend st.u a n, cache := st.cache.update a }

/-- All instructions of a window; `fuel` bounds the number of opcodes. `full` is the size at which no opcode may follow, if there is one. -/
def State.run (full : Option Nat) : (fuel : Nat) → State → Option State
  | 0, st => if st.s = [] then some st else none
  | fuel + 1, st =>
    match st.s with
    | [] => some st
    | op :: s =>
      if full.any (· ≤ st.u.length) then none
      else do
        let (t1, t2) ← rfcTable[op.toNat]?
        let st ← State.half { st with s } t1
        let st ← st.half t2
        st.run full fuel

/-- The target of a window whose target has `tlen` bytes: from a single section, or from three. -/
def target (picky : Bool) (src : Bytes) (tlen dlen ilen alen : Nat) (s : Bytes) : Option Bytes :=
  if dlen = 0 ∧ alen = 0 then
    if s.length ≠ ilen then none
    else do
      let st ← State.run (if picky then some (src.length + tlen) else none) s.length { s, u := src, cache := Cache.init }
      if st.u.length = src.length + tlen then some (st.u.drop src.length) else none
  else do
    let (data, s) ← split dlen s
    let (inst, addr) ← split ilen s
    if addr.length ≠ alen then none
    else do
      let st ← Reference.State.run (if picky then some (src.length + tlen) else none) inst.length { data, inst, addr, u := src, cache := Cache.init }
      if st.data = [] ∧ st.addr = [] ∧ st.u.length = src.length + tlen then some (st.u.drop src.length) else none

/-- The delta encoding of a window: its target, if its checksum is right. -/
def body (picky checksum : Bool) (src s : Bytes) : Option Bytes := do
  let (tlen, s) ← number 0 s
  let (di, s) ← split 1 s
  if di ≠ [0] then none
  else do
    let (dlen, s) ← number 0 s
    let (ilen, s) ← number 0 s
    let (alen, s) ← number 0 s
    if checksum = true then do
      let (v, s) ← number 0 s
      let t ← target picky src tlen dlen ilen alen s
      if v = adlerOf t then some t else none
    else target picky src tlen dlen ilen alen s

/-- A window, behind the target `prev`: its target, and what follows. -/
def window (picky : Bool) (dict prev s : Bytes) : Option (Bytes × Bytes) :=
  match s with
  | [] => none
  | ind :: s =>
    if 8 ≤ ind.toNat then none
    else do
      let (src, s) ← source (ind &&& 3) dict prev s
      let (len, s) ← number 0 s
      let (delta, s) ← split len s
      let t ← body picky (ind &&& 4 != 0) src delta
      some (t, s)

/-- Windows up to the end, behind the target `prev`; `fuel` bounds their number. -/
def windows (picky : Bool) (dict : Bytes) : (fuel : Nat) → Bytes → Bytes → Option Bytes
  | 0, prev, s => if s = [] then some prev else none
  | fuel + 1, prev, s =>
    if s = [] then some prev
    else do
      let (t, s) ← window picky dict prev s
      windows picky dict fuel (prev ++ t) s

/-- A delta file of either version. -/
def decode (picky : Bool) (dict delta : Bytes) : Option Bytes :=
  match delta with
  | 0xD6 :: 0xC3 :: 0xC4 :: 0x53 :: 0 :: s => windows picky dict s.length [] s
  | _ => Reference.decode picky dict delta

end Vcd.Spec.ReferenceExtended
