import Verif.Spec.CodeTable
import Verif.Spec.Exec

/-!
# Another decoder

A decoder for delta files in the standard format, written from RFC 3284 and from nothing else: it shares no code with the model of
this library, decodes whole files, keeps its numbers without limits and its caches as the arrays of section 5.1. It has neither
secondary compression nor custom code tables nor application headers, and it refuses whatever it does not know, and whatever is left over
in a section. If `picky` is set, it also refuses instructions that follow when the target of a window is complete, which produce nothing.
-/

namespace Vcd.Spec.Reference

/-- An integer (section 2). -/
def number (acc : Nat) : Bytes → Option (Nat × Bytes)
  | [] => none
  | b :: bs =>
    let acc := acc * 128 + b.toNat % 128
    if b.toNat < 128 then some (acc, bs) else number acc bs

/-- The caches (section 5.1) with `s_near = 4` and `s_same = 3`. -/
structure Cache where
  near : List Nat
  next : Nat
  same : List Nat

/-- `cache_init`. -/
def Cache.init : Cache := { near := List.replicate 4 0, next := 0, same := List.replicate 768 0 }

/-- `cache_update`. -/
def Cache.update (k : Cache) (addr : Nat) : Cache :=
  { near := k.near.set k.next addr, next := (k.next + 1) % 4, same := k.same.set (addr % 768) addr }

/-- `addr_decode` (section 5.3) without the update: an address, and what follows in the addresses section. -/
def Cache.address (k : Cache) (here mode : Nat) (s : Bytes) : Option (Nat × Bytes) :=
  if mode = 0 then number 0 s
  else if mode = 1 then (number 0 s).bind fun p => if p.1 ≤ here then some (here - p.1, p.2) else none
  else if mode < 6 then (number 0 s).map fun p => (k.near.getD (mode - 2) 0 + p.1, p.2)
  else
    match s with
    | [] => none
    | b :: s => some (k.same.getD ((mode - 6) * 256 + b.toNat) 0, s)

/-- A window that is being decoded: what is left of its three sections, the source segment followed by the target so far, and the
caches. -/
structure State where
  data : Bytes
  inst : Bytes
  addr : Bytes
  u : Bytes
  cache : Cache

/-- The size of an instruction (section 5.4): in the code table, or else in the instructions section. -/
def instructionSize (t : Template) (inst : Bytes) : Option (Nat × Bytes) :=
  if t.2.1 = 0 then number 0 inst else some (t.2.1, inst)

/-- One instruction of an opcode (sections 5.4 and 5.5). -/
def State.half (st : State) (t : Template) : Option State :=
  if t.1 = 0 then some st
  else do
    let (n, inst) ← instructionSize t st.inst
    if t.1 = 1 then
      if st.data.length < n then none
      else some { st with inst, data := st.data.drop n, u := st.u ++ st.data.take n }
    else if t.1 = 2 then
      match st.data with
      | [] => none
      | b :: data => some { st with inst, data, u := st.u ++ List.replicate n b }
    else do
      let (a, addr) ← st.cache.address st.u.length t.2.2 st.addr
      if st.u.length ≤ a then none
      else some { st with inst, addr, u := extend st.u a n, cache := st.cache.update a }

/-- All instructions of a window; `fuel` bounds the number of opcodes. `full` is the size at which no opcode may follow, if there is one. -/
def State.run (full : Option Nat) : (fuel : Nat) → State → Option State
  | 0, st => if st.inst = [] then some st else none
  | fuel + 1, st =>
    match st.inst with
    | [] => some st
    | op :: inst =>
      if full.any (· ≤ st.u.length) then none
      else do
        let (t1, t2) ← rfcTable[op.toNat]?
        let st ← State.half { st with inst } t1
        let st ← st.half t2
        st.run full fuel

/-- The first `n` bytes, and the others. -/
def split (n : Nat) (s : Bytes) : Option (Bytes × Bytes) := if s.length < n then none else some (s.take n, s.drop n)

/-- The source segment (section 4.2), in the dictionary or the target so far. -/
def source (ind : UInt8) (dict prev s : Bytes) : Option (Bytes × Bytes) :=
  if ind = 0 then some ([], s)
  else do
    let from_ ← if ind = 1 then some dict else if ind = 2 then some prev else none
    let (len, s) ← number 0 s
    let (pos, s) ← number 0 s
    if from_.length < pos + len then none else some ((from_.drop pos).take len, s)

/-- The delta encoding of a window (section 4.3): its target. -/
def body (picky : Bool) (src s : Bytes) : Option Bytes := do
  let (tlen, s) ← number 0 s
  let (di, s) ← split 1 s
  if di ≠ [0] then none
  else do
    let (dlen, s) ← number 0 s
    let (ilen, s) ← number 0 s
    let (alen, s) ← number 0 s
    let (data, s) ← split dlen s
    let (inst, addr) ← split ilen s
    if addr.length ≠ alen then none
    else do
      let st ← State.run (if picky then some (src.length + tlen) else none) inst.length
        { data, inst, addr, u := src, cache := Cache.init }
      if st.data = [] ∧ st.addr = [] ∧ st.u.length = src.length + tlen then some (st.u.drop src.length) else none

/-- A window, behind the target `prev`: its target, and what follows. -/
def window (picky : Bool) (dict prev s : Bytes) : Option (Bytes × Bytes) :=
  match s with
  | [] => none
  | ind :: s => do
    let (src, s) ← source ind dict prev s
    let (len, s) ← number 0 s
    let (delta, s) ← split len s
    let t ← body picky src delta
    some (t, s)

/-- Windows up to the end, behind the target `prev`; `fuel` bounds their number. -/
def windows (picky : Bool) (dict : Bytes) : (fuel : Nat) → Bytes → Bytes → Option Bytes
  | 0, prev, s => if s = [] then some prev else none
  | fuel + 1, prev, s =>
    if s = [] then some prev
    else do
      let (t, s) ← window picky dict prev s
      windows picky dict fuel (prev ++ t) s

/-- A delta file (section 4.1): `V`, `C`, `D` with the high bit set, version 0, nothing special, and windows. -/
def decode (picky : Bool) (dict delta : Bytes) : Option Bytes :=
  match delta with
  | 0xD6 :: 0xC3 :: 0xC4 :: 0 :: 0 :: s => windows picky dict s.length [] s
  | _ => none

end Vcd.Spec.Reference
