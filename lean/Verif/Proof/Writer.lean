import Verif.Model.Writer
import Verif.Spec.Rfc
import Verif.Proof.CodeTable
import Verif.Proof.AddrCache
import Verif.Proof.RfcUnique
import Verif.Proof.Adler
import Verif.Spec.Engine
import Verif.Spec.Dictionary
import Verif.Spec.Shortest
import Verif.Spec.Damage

/-!
# The code table writer: lemmas
-/

namespace Vcd
open Spec

/-! ## Programs -/

theorem sizes_append (a b : List Op) : sizes (a ++ b) = sizes a + sizes b := by simp [sizes]

theorem addrs_append (a b : List Op) : addrs (a ++ b) = addrs a ++ addrs b := by simp [addrs]

theorem Spec.Program.append {c : Coding} {hist : List Nat} {here : Nat} {i1 i2 : List Item} {o1 o2 : List Op}
    (h1 : Program c strict hist here i1 o1)
    (h2 : Program c strict (hist ++ addrs o1) (here + sizes o1) i2 o2) :
    Program c strict hist here (i1 ++ i2) (o1 ++ o2) := by
  induction h1 with
  | nil => simpa [addrs, sizes] using h2
  | @cons hist here op a1 p1 a2 p2 items ops k1 k2 _ ih =>
    have h3 := ih (by
      simp only [addrs_append, sizes_append] at h2
      simpa only [List.append_assoc, Nat.add_assoc] using h2)
    have := Program.cons k1 k2 h3
    simpa only [List.append_assoc, List.cons_append] using this
  | dangling h => exact absurd h (by decide)

theorem Spec.Program.single {c : Coding} {tol : Tolerance} {hist : List Nat} {here : Nat} {op : UInt8} {h : Half}
    {i : List Item} {o : List Op} (hs : IsSingle c.table op h) (hc : HalfCode c hist here h i o) :
    Program c tol hist here (.opcode op :: i) o := by
  rcases hs with ⟨rfl, h0⟩ | ⟨h0, _, rfl⟩
  · have := Program.cons (tol := tol) (op := op) (i2 := []) (o2 := []) hc (.noop h0) .nil
    simpa using this
  · have := Program.cons (c := c) (tol := tol) (hist := hist) (here := here) (op := op) (i1 := []) (o1 := [])
      (i2 := i) (o2 := o) (.noop h0) (by simpa [addrs, sizes] using hc) .nil
    simpa using this

theorem Spec.Program.double {c : Coding} {tol : Tolerance} {hist : List Nat} {here : Nat} {op : UInt8} {h1 h2 : Half}
    {i1 i2 : List Item} {o1 o2 : List Op} (e1 : c.table.first op = h1) (e2 : c.table.second op = h2)
    (k1 : HalfCode c hist here h1 i1 o1)
    (k2 : HalfCode c (hist ++ addrs o1) (here + sizes o1) h2 i2 o2) :
    Program c tol hist here (.opcode op :: (i1 ++ i2)) (o1 ++ o2) := by
  subst e1 e2
  have := Program.cons (tol := tol) k1 k2 .nil
  simpa using this

theorem Spec.Program.head {c : Coding} {tol : Tolerance} {hist : List Nat} {here : Nat} {items : List Item}
    {ops : List Op} (h : Program c tol hist here items ops) (hne : items ≠ []) :
    ∃ op rest, items = .opcode op :: rest := by
  cases h with
  | nil => exact absurd rfl hne
  | cons => exact ⟨_, _, rfl⟩
  | dangling => exact ⟨_, _, rfl⟩

namespace Writer

/-! ## Numbers -/

theorem toInt32_eq {n : Nat} (h : n ≤ int32Max) : toInt32 n = (n : Int) := by
  simp only [int32Max] at h
  simp only [toInt32]
  omega

theorem varintLength_eq {v : Nat} {bs : Bytes} (h3 : varintValue bs = v)
    (h5 : v ≠ 0 → 128 ^ (bs.length - 1) ≤ v) (h6 : v = 0 → bs.length = 1) : varintLength v = bs.length := by
  obtain ⟨k, k1, _, k3, k4, k5⟩ := varintLengthLoop_spec (v + 1) v 0 (by omega)
  have hlen : bs.length = k := by
    have := varintValue_lt bs
    rw [h3] at this
    apply length_unique this h5 k3 k4
    intro h; rw [h6 h, k5 h]
  simp only [varintLength]
  rw [if_neg (by omega)]
  simp only [Int.toNat_natCast]
  rw [k1, hlen, Nat.zero_add]

theorem sizeBytes_spec {n : Nat} (h : n ≤ int32Max) :
    ∃ bs, sizeBytes n = .ok bs ∧ NumCode bs n ∧ bs.length ≤ 5 ∧ sizeLength n = bs.length := by
  obtain ⟨bs, b1, b2, b3, b4, b5, b6⟩ := encodeVarint_spec maxBytes32 n (by decide)
    (by simp only [maxBytes32]; simp only [int32Max] at h; omega)
  refine ⟨bs, by rw [sizeBytes, toInt32_eq h, if_neg (by omega), b1], ⟨b2, b3, h⟩, b4, ?_⟩
  rw [sizeLength, toInt32_eq h]
  exact varintLength_eq b3 b5 b6

theorem checksumBytes_spec {n : Nat} (h : n < 2 ^ 32) :
    ∃ bs, checksumBytes (some n) = .ok bs ∧ IsVarint bs ∧ varintValue bs = n ∧ bs.length ≤ 5 ∧
      varintLength (n : Int) = bs.length := by
  obtain ⟨bs, b1, b2, b3, b4, b5, b6⟩ := encodeVarint_spec maxBytes64 n (by decide)
    (by simp only [maxBytes64]; omega)
  refine ⟨bs, by simp [checksumBytes, b1], b2, b3, ?_, varintLength_eq b3 b5 b6⟩
  by_cases h0 : n = 0
  · rw [b6 h0]; decide
  · have h1 := b5 h0
    have : bs.length - 1 < 5 := (Nat.pow_lt_pow_iff_right (a := 128) (by decide)).1 (by omega)
    omega

/-! ## Code tables -/

/-- A code table the writer can work with, and its instruction map. -/
structure Usable (c : Coding) (maxMode : Nat) (m : InstructionMap) : Prop where
  valid : ValidTable maxMode c.table
  map : InstructionMap.build c.table maxMode = some m
  mode : maxMode = c.near + c.same + 1
  near : c.near ≤ 253
  sum : c.near + c.same ≤ 254

variable {c : Coding} {maxMode : Nat} {m : InstructionMap}

/-- Instruction `inst` with mode `mode`. -/
def Known (maxMode : Nat) (inst : UInt8) (mode : Nat) : Prop :=
  1 ≤ inst.toNat ∧ inst.toNat ≤ 3 ∧ mode ≤ maxMode ∧ (inst.toNat ≠ 3 → mode = 0)

theorem Usable.mode_lt (u : Usable c maxMode m) : maxMode < 256 := by have := u.mode; have := u.sum; omega

theorem half_ok {inst : UInt8} {mode : Nat} (hk : Known maxMode inst mode) (hm : maxMode < 256) (size : UInt8) :
    HalfOk maxMode ⟨inst, size, UInt8.ofNat mode⟩ ∧ (UInt8.ofNat mode).toNat = mode ∧ inst ≠ vcdNoop := by
  obtain ⟨h1, h2, h3, h4⟩ := hk
  have e : (UInt8.ofNat mode).toNat = mode := by rw [UInt8.toNat_ofNat']; omega
  refine ⟨⟨h2, by simpa [e] using h3, fun h => absurd h (by simp; omega), fun h => by simpa [e] using h4 h⟩, e, ?_⟩
  rintro rfl
  exact absurd h1 (by decide)

/-- Either the size is in the opcode, or it is written. -/
theorem size_cases {inst : UInt8} {size mode : Nat} (hs : 0 < size) (hs2 : size ≤ int32Max) :
    (size ≤ 255 → SizeCode ⟨inst, UInt8.ofNat size, UInt8.ofNat mode⟩ [] size ∧ (UInt8.ofNat size).toNat = size) ∧
    ∃ sb, sizeBytes size = .ok sb ∧ sb.length ≤ 5 ∧ SizeCode ⟨inst, 0, UInt8.ofNat mode⟩ sb size := by
  constructor
  · intro h
    have e : (UInt8.ofNat size).toNat = size := by rw [UInt8.toNat_ofNat']; omega
    refine ⟨Or.inr ⟨?_, rfl, e.symm⟩, e⟩
    intro h0
    have : (UInt8.ofNat size).toNat = 0 := by simp only at h0; rw [h0]; rfl
    omega
  · obtain ⟨sb, b1, b2, b3, _⟩ := sizeBytes_spec hs2
    exact ⟨sb, b1, b3, Or.inl ⟨rfl, b2⟩⟩

theorem lookupFirst_ok (u : Usable c maxMode m) {inst : UInt8} {size mode : Nat} (hk : Known maxMode inst mode)
    (hs : 0 < size) (hs2 : size ≤ int32Max) :
    ∃ op explicit sb h, lookupFirst m inst size mode = .ok (op, explicit) ∧
      sizeOperand explicit size = .ok sb ∧ sb.length ≤ 5 ∧ SizeCode h sb size ∧
      h.inst = inst ∧ h.mode.toNat = mode ∧ HalfOk maxMode h ∧ h.inst ≠ vcdNoop ∧ IsSingle c.table op h ∧
      m.firstMap.lookup h.inst h.size.toNat h.mode.toNat = .found (some op) := by
  obtain ⟨c1, sb, c2, c3, c4⟩ := size_cases (inst := inst) (mode := mode) hs hs2
  obtain ⟨z1, z2, z3⟩ := half_ok hk u.mode_lt 0
  have zero : ∃ op, m.firstMap.lookup inst 0 mode = .found (some op) ∧
      IsSingle c.table op ⟨inst, 0, UInt8.ofNat mode⟩ := by
    obtain ⟨r, r1, r2, r3⟩ := lookupFirst_spec u.valid u.map ⟨inst, 0, UInt8.ofNat mode⟩ z1
    simp only [z2] at r1
    cases r with
    | some op => exact ⟨op, r1, (r2 op rfl).1⟩
    | none =>
      exfalso
      have hx : Expressible c.table inst.toNat mode := by
        obtain ⟨k1, k2, k3, k4⟩ := hk
        obtain ⟨_, v1, v2, v3⟩ := u.valid
        by_cases e3 : inst.toNat = 3
        · rw [e3]; exact v3 mode k3
        · rw [k4 e3]
          by_cases e1 : inst.toNat = 1
          · rw [e1]; exact v1
          · have e2 : inst.toNat = 2 := by omega
            rw [e2]; exact v2
      obtain ⟨op, x1, x2, x3, x4⟩ := hx
      refine r3 rfl op (Or.inl ⟨?_, x4⟩)
      cases hf : c.table.first op with
      | mk a b d =>
        rw [hf] at x1 x2 x3
        simp only at x1 x2 x3
        simp only [Half.mk.injEq]
        exact ⟨UInt8.toNat_inj.1 x1, UInt8.toNat_inj.1 (by simpa using x2), UInt8.toNat_inj.1 (by rw [z2]; exact x3)⟩
  obtain ⟨op0, o1, o2⟩ := zero
  by_cases h255 : size ≤ 255
  · obtain ⟨d1, d2⟩ := c1 h255
    obtain ⟨y1, _, _⟩ := half_ok hk u.mode_lt (UInt8.ofNat size)
    obtain ⟨r, r1, r2, r3⟩ := lookupFirst_spec u.valid u.map ⟨inst, UInt8.ofNat size, UInt8.ofNat mode⟩ y1
    simp only [d2, z2] at r1
    cases r with
    | some op =>
      refine ⟨op, false, [], ⟨inst, UInt8.ofNat size, UInt8.ofNat mode⟩, ?_, rfl, by simp, d1, rfl, z2, y1, z3,
        (r2 op rfl).1, ?_⟩
      · simp only [lookupFirst, if_pos h255, r1]
      · simp only [d2, z2, r1]
    | none =>
      refine ⟨op0, true, sb, ⟨inst, 0, UInt8.ofNat mode⟩, ?_, ?_, c3, c4, rfl, z2, z1, z3, o2, ?_⟩
      · simp only [lookupFirst, if_pos h255, r1, o1]
      · simp [sizeOperand, c2]
      · simp only [z2]; exact o1
  · refine ⟨op0, true, sb, ⟨inst, 0, UInt8.ofNat mode⟩, ?_, ?_, c3, c4, rfl, z2, z1, z3, o2, ?_⟩
    · simp only [lookupFirst, if_neg h255, o1]
    · simp [sizeOperand, c2]
    · simp only [z2]; exact o1

theorem lookupSecond_ok (u : Usable c maxMode m) {inst : UInt8} {size mode : Nat} (hk : Known maxMode inst mode)
    (hs : 0 < size) (hs2 : size ≤ int32Max) {h1 : Half} (hok1 : HalfOk maxMode h1) (hne1 : h1.inst ≠ vcdNoop)
    {op1 : UInt8} (hop1 : m.firstMap.lookup h1.inst h1.size.toNat h1.mode.toNat = .found (some op1)) :
    lookupSecond m op1 inst size mode = .ok none ∨
    ∃ op explicit sb h, lookupSecond m op1 inst size mode = .ok (some (op, explicit)) ∧
      sizeOperand explicit size = .ok sb ∧ sb.length ≤ 5 ∧ SizeCode h sb size ∧
      h.inst = inst ∧ h.mode.toNat = mode ∧ c.table.first op = h1 ∧ c.table.second op = h := by
  obtain ⟨c1, sb, c2, c3, c4⟩ := size_cases (inst := inst) (mode := mode) hs hs2
  obtain ⟨z1, z2, z3⟩ := half_ok hk u.mode_lt 0
  obtain ⟨r0, o1, o2, _⟩ := lookupSecond_spec u.valid u.map h1 hok1 hne1 op1 hop1 ⟨inst, 0, UInt8.ofNat mode⟩ z1 z3
  simp only [z2] at o1
  have o1' : m.secondMap.lookup op1 inst 0 mode = .found r0 := o1
  have zero : (if size ≤ 255 then m.secondMap.lookup op1 inst size mode else .found none) = .found none →
      lookupSecond m op1 inst size mode = .ok none ∨
      ∃ op explicit sb h, lookupSecond m op1 inst size mode = .ok (some (op, explicit)) ∧
        sizeOperand explicit size = .ok sb ∧ sb.length ≤ 5 ∧ SizeCode h sb size ∧
        h.inst = inst ∧ h.mode.toNat = mode ∧ c.table.first op = h1 ∧ c.table.second op = h := by
    intro hn
    simp only [lookupSecond, hn, o1']
    cases r0 with
    | none => exact Or.inl rfl
    | some op =>
      exact Or.inr ⟨op, true, sb, ⟨inst, 0, UInt8.ofNat mode⟩, rfl, by simp [sizeOperand, c2], c3, c4, rfl, z2,
        (o2 op rfl).1, (o2 op rfl).2⟩
  by_cases h255 : size ≤ 255
  · obtain ⟨d1, d2⟩ := c1 h255
    obtain ⟨y1, _, _⟩ := half_ok hk u.mode_lt (UInt8.ofNat size)
    obtain ⟨r, r1, r2, _⟩ := lookupSecond_spec u.valid u.map h1 hok1 hne1 op1 hop1
      ⟨inst, UInt8.ofNat size, UInt8.ofNat mode⟩ y1 z3
    simp only [d2, z2] at r1
    cases r with
    | some op =>
      right
      refine ⟨op, false, [], ⟨inst, UInt8.ofNat size, UInt8.ofNat mode⟩, ?_, rfl, by simp, d1, rfl, z2,
        (r2 op rfl).1, (r2 op rfl).2⟩
      simp only [lookupSecond, if_pos h255, r1]
    | none => exact zero (by rw [if_pos h255]; exact r1)
  · exact zero (by rw [if_neg h255])

/-! ## The sections -/

/-- What goes into `instructions_and_sizes_`. -/
def sec (interleaved : Bool) : Item → Bytes := if interleaved then Item.bytes else Item.inst

@[simp] theorem sec_opcode (il : Bool) (b : UInt8) : sec il (.opcode b) = [b] := by cases il <;> rfl
@[simp] theorem sec_size (il : Bool) (bs : Bytes) : sec il (.size bs) = bs := by cases il <;> rfl

/-- The items written so far. The last opcode may still be replaced by a compound one. -/
inductive State (c : Coding) (maxMode : Nat) (m : InstructionMap) (d : Nat) (il : Bool) :
    Option Nat → List Item → List Op → Prop
  | closed {items ops} : Program c strict [] d items ops → State c maxMode m d il none items ops
  | pending {items ops op i1 o h} : Program c strict [] d items ops →
      m.firstMap.lookup h.inst h.size.toNat h.mode.toNat = .found (some op) → IsSingle c.table op h →
      HalfOk maxMode h → h.inst ≠ vcdNoop → HalfCode c (addrs ops) (d + sizes ops) h i1 [o] →
      State c maxMode m d il (some (items.flatMap (sec il)).length) (items ++ .opcode op :: i1) (ops ++ [o])

theorem State.program {d : Nat} {il : Bool} {last : Option Nat} {items : List Item} {ops : List Op}
    (h : State c maxMode m d il last items ops) : Program c strict [] d items ops := by
  cases h with
  | closed h => exact h
  | pending h _ hs _ _ hc => exact h.append (.single hs (by simpa using hc))

/-- The operand of an instruction. -/
def IsOperand : Item → Prop
  | .data bs => bs ≠ []
  | .address bs => bs ≠ []
  | _ => False

theorem copyModes_append (t : CodeTable) (a b : List Item) : copyModes t (a ++ b) = copyModes t a ++ copyModes t b := by
  simp [copyModes]

theorem copyModes_half {hist : List Nat} {here : Nat} {h : Half} {is : List Item} {os : List Op}
    (hc : HalfCode c hist here h is os) : copyModes c.table is = [] := by
  cases hc <;> rfl

/-- The result of writing an instruction whose operand is `x`. -/
def Encoded (c : Coding) (maxMode : Nat) (m : InstructionMap) (d : Nat) (w : Writer) (items : List Item)
    (ops : List Op) (x : Item) (o : Op) (inst : UInt8) (mode : Nat) (r : Except Fault Writer) : Prop :=
  ∃ inst' last' items' front, r = .ok { w with inst := inst', lastOpcode := last' } ∧
    State c maxMode m d w.interleaved last' items' (ops ++ [o]) ∧ items' = front ++ [x] ∧
    inst' = front.flatMap (sec w.interleaved) ∧
    front.flatMap Item.dataBytes = items.flatMap Item.dataBytes ∧
    front.flatMap Item.addr = items.flatMap Item.addr ∧
    (front.flatMap Item.bytes).length ≤ (items.flatMap Item.bytes).length + 6 ∧
    copyModes c.table items' = copyModes c.table items ++ if inst.toNat = 3 then [mode] else []

theorem encodeInstruction_fresh (u : Usable c maxMode m) {inst : UInt8} {size mode : Nat}
    (hk : Known maxMode inst mode)
    (hs : 0 < size) (hs2 : size ≤ int32Max) {d : Nat} {w : Writer} {items : List Item} {ops : List Op}
    (hm : w.map = some m) (hst : Program c strict [] d items ops)
    (hw : w.inst = items.flatMap (sec w.interleaved)) {x : Item} {o : Op}
    (hx : ∀ h sb, h.inst = inst → h.mode.toNat = mode → SizeCode h sb size →
      HalfCode c (addrs ops) (d + sizes ops) h [.size sb, x] [o])
    (hc : w.compound m inst size mode = .ok none) :
    Encoded c maxMode m d w items ops x o inst mode (w.encodeInstruction inst size mode) := by
  obtain ⟨op, explicit, sb, h, a1, a2, a3, a4, a5, a6, a7, a8, a9, a10⟩ := lookupFirst_ok u hk hs hs2
  refine ⟨w.inst ++ [op] ++ sb, some w.inst.length, items ++ .opcode op :: [.size sb, x],
    items ++ [.opcode op, .size sb], ?_, ?_, by simp, by simp [hw], by simp [Item.dataBytes], by simp [Item.addr], ?_, ?_⟩
  · simp only [encodeInstruction, hm, hc, a1, a2, Except.map]
  · rw [hw]
    exact .pending hst a10 a9 a7 a8 (hx h sb a5 a6 a4)
  · simp only [List.flatMap_append, List.length_append, List.flatMap_cons, List.flatMap_nil, Item.bytes,
      List.length_cons, List.length_nil]
    omega
  · have e : copyModes c.table (.opcode op :: [.size sb, x]) = copyModes c.table [.opcode op] ++ copyModes c.table [.size sb, x] :=
      copyModes_append _ [_] _
    rw [copyModes_append, e, copyModes_half (hx h sb a5 a6 a4), List.append_nil]
    congr 1
    have hn : ∀ g : Half, g.inst.toNat = 0 → copyMode g = [] := fun g hg => by simp [copyMode, hg]
    have hh : copyMode h = if inst.toNat = 3 then [mode] else [] := by rw [copyMode, a5, a6]
    rcases a9 with ⟨e1, e2⟩ | ⟨e1, e2, e3⟩
    · simp only [copyModes, List.flatMap_cons, List.flatMap_nil, List.append_nil, hn _ e2, e1, hh]
    · simp only [copyModes, List.flatMap_cons, List.flatMap_nil, List.append_nil, List.nil_append, hn _ e1, e3, hh]

theorem encodeInstruction_ok (u : Usable c maxMode m) {inst : UInt8} {size mode : Nat} (hk : Known maxMode inst mode)
    (hs : 0 < size) (hs2 : size ≤ int32Max) {d : Nat} {w : Writer} {items : List Item} {ops : List Op}
    (hm : w.map = some m) (hst : State c maxMode m d w.interleaved w.lastOpcode items ops)
    (hw : w.inst = items.flatMap (sec w.interleaved)) {x : Item} {o : Op}
    (hx : ∀ h sb, h.inst = inst → h.mode.toNat = mode → SizeCode h sb size →
      HalfCode c (addrs ops) (d + sizes ops) h [.size sb, x] [o]) :
    Encoded c maxMode m d w items ops x o inst mode (w.encodeInstruction inst size mode) := by
  have hprog := hst.program
  generalize hl : w.lastOpcode = last at hst
  cases hst with
  | closed hp => exact encodeInstruction_fresh u hk hs hs2 hm hprog hw hx (by simp only [compound, hl])
  | @pending items ops op1 i1 o1 h1 hp f1 f2 f3 f4 f5 =>
    have hget : w.inst[(items.flatMap (sec w.interleaved)).length]? = some op1 := by
      rw [hw]; simp [List.flatMap_append]
    rcases lookupSecond_ok u hk hs hs2 f3 f4 f1 with hnone | ⟨op, explicit, sb, h, a1, a2, a3, a4, a5, a6, a7, a8⟩
    · exact encodeInstruction_fresh u hk hs hs2 hm hprog hw hx (by simp only [compound, hl, hget, hnone])
    · have hcode := hx h sb a5 a6 a4
      refine ⟨w.inst.set (items.flatMap (sec w.interleaved)).length op ++ sb, none,
        items ++ .opcode op :: (i1 ++ [.size sb, x]), items ++ .opcode op :: (i1 ++ [.size sb]), ?_, ?_, by simp, ?_,
        by simp [Item.dataBytes], by simp [Item.addr], ?_, ?_⟩
      · simp only [encodeInstruction, hm, compound, hl, hget, a1, a2, Except.map]
      · have := hp.append (i2 := .opcode op :: (i1 ++ [.size sb, x])) (o2 := [o1] ++ [o])
          (.double a7 a8 (by simpa using f5) (by
            simp only [addrs_append, sizes_append] at hcode
            simpa [Nat.add_assoc] using hcode))
        rw [List.append_assoc]
        exact .closed this
      · rw [hw]
        simp
      · simp only [List.flatMap_append, List.length_append, List.flatMap_cons, List.flatMap_nil, Item.bytes,
          List.length_cons, List.length_nil]
        omega
      · have e1 : copyModes c.table (.opcode op :: (i1 ++ [.size sb, x])) =
            copyModes c.table [.opcode op] ++ (copyModes c.table i1 ++ copyModes c.table [.size sb, x]) := by
          rw [← copyModes_append, ← copyModes_append]; rfl
        have e2 : copyModes c.table (.opcode op1 :: i1) = copyModes c.table [.opcode op1] ++ copyModes c.table i1 :=
          copyModes_append _ [_] _
        rw [copyModes_append, e1, copyModes_append, e2, copyModes_half f5, copyModes_half hcode, List.append_nil, List.append_nil,
          List.append_assoc]
        congr 1
        have hn : ∀ g : Half, g.inst.toNat = 0 → copyMode g = [] := fun g hg => by simp [copyMode, hg]
        have hh : copyMode h = if inst.toNat = 3 then [mode] else [] := by rw [copyMode, a5, a6]
        rcases f2 with ⟨g1, g2⟩ | ⟨g1, g2, g3⟩
        · simp only [copyModes, List.flatMap_cons, List.flatMap_nil, List.append_nil, hn _ g2, g1, hh, a7, a8]
        · simp only [copyModes, List.flatMap_cons, List.flatMap_nil, List.append_nil, List.nil_append, hn _ g1, g3, hh, a7, a8]

/-! ## The calls -/

/-- A bound for the number of bytes an instruction is written in. -/
def cost : Op → Nat
  | .add bytes => bytes.length + 6
  | .run _ _ => 7
  | .copy _ _ => 11

/-- The bound for a list of instructions. -/
def costs (ops : List Op) : Nat := (ops.map cost).sum

theorem costs_append (a b : List Op) : costs (a ++ b) = costs a + costs b := by simp [costs]

/-- An instruction the writer can be given when `here` bytes precede it. -/
def Writable (here : Nat) (o : Op) : Prop :=
  0 < o.size ∧ o.size ≤ int32Max ∧ ∀ a n, o = .copy a n → a < here ∧ here ≤ int32Max

/-- The mode that is used for a COPY from `a`. -/
def modeOf (c : Coding) (hist : List Nat) (here a : Nat) : Nat :=
  match (AddrCache.ofHist c.near c.same hist).encodeAddress a here with
  | .ok mode _ _ => mode
  | .fault _ => 0

/-- The instructions with their modes. -/
def elemsOf (c : Coding) (hist : List Nat) (here : Nat) : List Op → List (Op × Nat)
  | [] => []
  | o :: ops => (o, match o with | .copy a _ => modeOf c hist here a | _ => 0) :: elemsOf c (hist ++ o.addrs) (here + o.size) ops

/-- The mode of a COPY. -/
def elemMode : Op × Nat → List Nat
  | (.copy _ _, m) => [m]
  | _ => []

theorem elemsOf_append (c : Coding) (hist : List Nat) (here : Nat) (a b : List Op) :
    elemsOf c hist here (a ++ b) = elemsOf c hist here a ++ elemsOf c (hist ++ addrs a) (here + sizes a) b := by
  induction a generalizing hist here with
  | nil => simp [elemsOf, addrs, sizes]
  | cons o a ih =>
    simp only [List.cons_append, elemsOf, ih]
    have e1 : hist ++ o.addrs ++ addrs a = hist ++ addrs (o :: a) := by simp [addrs]
    have e2 : here + o.size + sizes a = here + sizes (o :: a) := by simp [sizes]; omega
    rw [e1, e2]

/-- A writer that has been given `ops` since the last `Init`, for a dictionary of size `d`. -/
structure Inv (c : Coding) (maxMode : Nat) (m : InstructionMap) (d : Nat) (w : Writer) (ops : List Op)
    (items : List Item) : Prop where
  map : w.map = some m
  dict : w.dictionarySize = d
  target : w.targetLength = sizes ops
  cache : w.cache = AddrCache.ofHist c.near c.same (addrs ops)
  state : State c maxMode m d w.interleaved w.lastOpcode items ops
  inst : w.inst = items.flatMap (sec w.interleaved)
  data : w.data = if w.interleaved then [] else items.flatMap Item.dataBytes
  addr : w.addr = if w.interleaved then [] else items.flatMap Item.addr
  last : ops = [] ∧ items = [] ∨
    (∃ front x, items = front ++ [x] ∧ IsOperand x) ∧ ∃ front o, ops = front ++ [o] ∧ 0 < o.size
  bytes : (items.flatMap Item.bytes).length ≤ costs ops
  modes : copyModes c.table items = (elemsOf c [] d ops).flatMap elemMode

/-- The operand appended to its section. -/
def appendItem (w : Writer) : Item → Writer
  | .data bs => w.appendData bs
  | .address bs => w.appendAddr bs
  | _ => w

theorem inv_step (u : Usable c maxMode m) {inst : UInt8} {size mode : Nat} (hk : Known maxMode inst mode)
    {d : Nat} {w : Writer} {items : List Item} {ops : List Op} (hi : Inv c maxMode m d w ops items) {x : Item} {o : Op}
    (ho : o.size = size) (hs : 0 < size) (hs2 : size ≤ int32Max) (hxo : IsOperand x)
    (hcost : x.bytes.length + 6 ≤ cost o)
    (hmode : (elemsOf c (addrs ops) (d + sizes ops) [o]).flatMap elemMode = if inst.toNat = 3 then [mode] else [])
    (hx : ∀ h sb, h.inst = inst → h.mode.toNat = mode → SizeCode h sb size →
      HalfCode c (addrs ops) (d + sizes ops) h [.size sb, x] [o]) :
    ∃ w1, { w with cache := AddrCache.ofHist c.near c.same (addrs (ops ++ [o])) }.encodeInstruction inst size mode
        = .ok w1 ∧ w1.cache = AddrCache.ofHist c.near c.same (addrs (ops ++ [o])) ∧
      w1.interleaved = w.interleaved ∧ w1.checksum = w.checksum ∧ w1.table = w.table ∧ w1.maxMode = w.maxMode ∧
      ∃ items', Inv c maxMode m d ((w1.appendItem x).advance size) (ops ++ [o]) items' := by
  obtain ⟨inst', last', items', front, e1, e2, e3, e4, e5, e6, e7, e8⟩ :=
    encodeInstruction_ok u (w := { w with cache := AddrCache.ofHist c.near c.same (addrs (ops ++ [o])) })
      hk hs hs2 hi.map hi.state hi.inst hx
  refine ⟨_, e1, rfl, rfl, rfl, rfl, rfl, items', ?_⟩
  obtain ⟨h1, h2, h3, h4, h5, h6, h7, h8, h9, h10, h11⟩ := hi
  subst e3
  have hms : copyModes c.table (front ++ [x]) = (elemsOf c [] d (ops ++ [o])).flatMap elemMode := by
    rw [e8, h11, elemsOf_append, List.flatMap_append, List.nil_append, hmode]
  clear e8 h11
  have hsz : w.targetLength + size = sizes (ops ++ [o]) := by rw [sizes_append, h3]; simp [sizes, ho]
  have hb : ((front ++ [x]).flatMap Item.bytes).length ≤ costs (ops ++ [o]) := by
    rw [costs_append]
    simp only [List.flatMap_append, List.length_append, List.flatMap_cons, List.flatMap_nil, List.append_nil]
    simp only [costs, List.map_cons, List.map_nil, List.sum_cons, List.sum_nil] at *
    omega
  have hl : ops ++ [o] = [] ∧ front ++ [x] = [] ∨
      (∃ f y, front ++ [x] = f ++ [y] ∧ IsOperand y) ∧ ∃ f p, ops ++ [o] = f ++ [p] ∧ 0 < p.size :=
    Or.inr ⟨⟨front, x, rfl, hxo⟩, ops, o, rfl, by omega⟩
  simp only at e2
  clear hx
  cases x with
  | opcode => exact absurd hxo (by simp [IsOperand])
  | size => exact absurd hxo (by simp [IsOperand])
  | data bs =>
    cases hil : w.interleaved
    · refine ⟨?_, ?_, ?_, ?_, by simpa [appendItem, appendData, advance, hil] using e2, ?_, ?_, ?_, hl, hb, hms⟩ <;>
        simp_all [appendItem, appendData, advance, sec, Item.inst, Item.dataBytes, Item.addr]
    · refine ⟨?_, ?_, ?_, ?_, by simpa [appendItem, appendData, advance, hil] using e2, ?_, ?_, ?_, hl, hb, hms⟩ <;>
        simp_all [appendItem, appendData, advance, sec, Item.bytes]
  | address bs =>
    cases hil : w.interleaved
    · refine ⟨?_, ?_, ?_, ?_, by simpa [appendItem, appendAddr, advance, hil] using e2, ?_, ?_, ?_, hl, hb, hms⟩ <;>
        simp_all [appendItem, appendAddr, advance, sec, Item.inst, Item.dataBytes, Item.addr]
    · refine ⟨?_, ?_, ?_, ?_, by simpa [appendItem, appendAddr, advance, hil] using e2, ?_, ?_, ?_, hl, hb, hms⟩ <;>
        simp_all [appendItem, appendAddr, advance, sec, Item.bytes]

theorem isVarint_ne_nil {bs : Bytes} (h : IsVarint bs) : bs ≠ [] := by
  obtain ⟨f, l, hb, _⟩ := h; simp [hb]

theorem call_ok (u : Usable c maxMode m) {d : Nat} {w : Writer} {items : List Item} {ops : List Op}
    (hi : Inv c maxMode m d w ops items) {o : Op} (hw : Writable (d + sizes ops) o) :
    ∃ w', w.call o.call = .ok ([], w') ∧ w'.interleaved = w.interleaved ∧ w'.checksum = w.checksum ∧
      w'.table = w.table ∧ w'.maxMode = w.maxMode ∧ ∃ items', Inv c maxMode m d w' (ops ++ [o]) items' := by
  obtain ⟨hs, hs2, hcopy⟩ := hw
  have nochange : addrs (ops ++ [o]) = addrs ops →
      ({ w with cache := AddrCache.ofHist c.near c.same (addrs (ops ++ [o])) } : Writer) = w := by
    intro h; rw [h, ← hi.cache]
  cases o with
  | add bytes =>
    obtain ⟨w1, e1, _, e3, e4, e5, e6, items', e7⟩ := inv_step u (inst := vcdAdd) (size := bytes.length) (mode := 0)
      (x := .data bytes) (o := .add bytes)
      ⟨by decide, by decide, by omega, fun _ => rfl⟩ hi rfl hs hs2
      (by simp only [IsOperand]; rintro rfl; simp [Op.size] at hs) (by simp [cost, Item.bytes]) rfl
      (fun h sb k1 k2 k3 => .add (by rw [k1]; decide) k3)
    rw [nochange (by simp [addrs, Op.addrs])] at e1
    refine ⟨_, ?_, ?_, ?_, ?_, ?_, items', e7⟩
    · simp only [call, Op.call, add, e1, Except.map, appendItem]
    all_goals (simp only [appendItem, advance, appendData]; split <;> assumption)
  | run b n =>
    obtain ⟨w1, e1, _, e3, e4, e5, e6, items', e7⟩ := inv_step u (inst := vcdRun) (size := n) (mode := 0)
      (x := .data [b]) (o := .run b n)
      ⟨by decide, by decide, by omega, fun _ => rfl⟩ hi rfl hs hs2
      (by simp [IsOperand]) (by simp [cost, Item.bytes]) rfl
      (fun h sb k1 k2 k3 => .run (by rw [k1]; decide) k3)
    rw [nochange (by simp [addrs, Op.addrs])] at e1
    refine ⟨_, ?_, ?_, ?_, ?_, ?_, items', e7⟩
    · simp only [call, Op.call, run, e1, Except.map, appendItem]
    all_goals (simp only [appendItem, advance, appendData]; split <;> assumption)
  | copy a n =>
    obtain ⟨ha, hh⟩ := hcopy a n rfl
    obtain ⟨mode, enc, bs, a1, a2, a3, a4, a5, a6, _⟩ := AddrCache.encode_is_AddrCode c.near c.same (addrs ops)
      u.near u.sum a (d + sizes ops) ha hh
    have hadd : addrs (ops ++ [.copy a n]) = addrs ops ++ [a] := by simp [addrs, Op.addrs]
    obtain ⟨w1, e1, e2, e3, e4, e5, e6, items', e7⟩ := inv_step u (inst := vcdCopy) (size := n) (mode := mode)
      (x := .address bs) (o := .copy a n)
      ⟨by decide, by decide, by rw [u.mode]; omega, fun h => absurd rfl h⟩ hi rfl hs hs2
      (by simp only [IsOperand]; rintro rfl; simp at a5) (by simp only [cost, Item.bytes]; omega)
      (by rw [elemsOf, modeOf, a1]; rfl)
      (fun h sb k1 k2 k3 => .copy (by rw [k1]; decide) k3 (by rw [k2]; exact a3) ha hh)
    refine ⟨_, ?_, ?_, ?_, ?_, ?_, items', e7⟩
    · have hcache : w.cache.encodeAddress (a : Int) (toInt32 (w.dictionarySize + w.targetLength)) =
          .ok mode enc (AddrCache.ofHist c.near c.same (addrs ops ++ [a])) := by
        rw [hi.cache, hi.dict, hi.target, toInt32_eq hh, a1]
      rw [hadd] at e1 e2
      simp only [hi.map] at e1
      simp only [call, Op.call, copy, hi.map, hcache, e1, e2, a2, Except.map, appendItem]
    all_goals (simp only [appendItem, advance, appendAddr]; split <;> assumption)

/-- `Init` on a writer with nothing pending. -/
theorem init_inv (u : Usable c maxMode m) {w : Writer} (d : Nat)
    (ht : w.table = c.table) (hmm : w.maxMode = maxMode) (hmap : w.map = none ∨ w.map = some m)
    (hc : w.cache = AddrCache.new c.near c.same ∨ ∃ hist, w.cache = AddrCache.ofHist c.near c.same hist)
    (h1 : w.inst = []) (h2 : w.data = []) (h3 : w.addr = []) :
    ∃ w', w.init d = .ok (true, w') ∧ w'.interleaved = w.interleaved ∧ w'.checksum = w.checksum ∧
      w'.table = w.table ∧ w'.maxMode = w.maxMode ∧ Inv c maxMode m d w' [] [] := by
  have hcache : w.cache.init = some (AddrCache.ofHist c.near c.same []) := by
    have := u.sum
    rcases hc with e | ⟨hist, e⟩
    · rw [e, AddrCache.init_new, if_neg (by omega)]
    · rw [e, AddrCache.init_ofHist, if_neg (by omega)]
  have hbuild : InstructionMap.build w.table w.maxMode = some m := by rw [ht, hmm]; exact u.map
  have inv : Inv c maxMode m d { w with
      dictionarySize := d, map := some m, cache := AddrCache.ofHist c.near c.same [],
      targetLength := 0, lastOpcode := none } [] [] :=
    ⟨rfl, rfl, rfl, rfl, .closed .nil, h1, by simp [h2], by simp [h3], Or.inl ⟨rfl, rfl⟩, by simp [costs], rfl⟩
  refine ⟨_, ?_, ?_, ?_, ?_, ?_, inv⟩
  · rcases hmap with e | e
    · simp only [init, e, hbuild, hcache, Option.map]
    · simp only [init, e, hcache]
  all_goals rfl

/-! ## The window -/

theorem windowBytes_any {d : Nat} {w : Writer} {ops : List Op} {items : List Item}
    (hi : Inv c maxMode m d w ops items) (hne : ops ≠ []) {dict T : Bytes}
    (hd : dict.length = d) (hexec : execOps dict ops = dict ++ T)
    (hsize : d + T.length ≤ int32Max) (hcost : costs ops + 26 ≤ int32Max)
    (hlt : ∀ v, w.checksum = some v → v < 2 ^ 32) (hnear : c.near ≤ 253) (hsum : c.near + c.same ≤ 254) :
    ∃ out, w.windowBytes = .ok out ∧ out.length ≤ costs ops + 38 ∧ w.inst ≠ [] ∧ Carries w.interleaved w.checksum out ∧
      (SourceIs d out ∧ ∀ ext : Bool, (w.interleaved = true ∨ w.checksum ≠ none → ext = true) →
        ∃ R : Reading out, WrittenAs c ext R d items ops) ∧
      ∀ (ext : Bool) (s : Settings) (prev : Bytes), (w.interleaved = true ∨ w.checksum ≠ none → ext = true) →
        (∀ v, w.checksum = some v → v = adlerOf T) → T.length ≤ s.maxWindow → prev.length + T.length ≤ s.maxFile →
        WindowCode c ext strict s dict prev out T := by
  obtain ⟨h1, h2, h3, h4, h5, h6, h7, h8, h9, h10, _⟩ := hi
  have hprog := h5.program
  obtain ⟨⟨front, x, hitems, hxo⟩, fo, o, hops, ho⟩ := h9.resolve_left (fun h => hne h.1)
  have hTs : T.length = sizes ops := by
    have := execOps_length ops dict
    rw [hexec, List.length_append] at this; omega
  -- lengths of the sections
  have hlens : ∀ l : List Item, (l.flatMap Item.inst).length + (l.flatMap Item.dataBytes).length +
      (l.flatMap Item.addr).length = (l.flatMap Item.bytes).length := by
    intro l
    induction l with
    | nil => rfl
    | cons a l ih =>
      simp only [List.flatMap_cons, List.length_append]
      cases a <;> simp only [Item.inst, Item.dataBytes, Item.addr, Item.bytes, List.length_nil] <;> omega
  have hlen : w.data.length + w.inst.length + w.addr.length = (items.flatMap Item.bytes).length := by
    rw [h6, h7, h8]
    cases hil : w.interleaved
    · have := hlens items
      simp only [sec, Bool.false_eq_true, if_false]; omega
    · simp [sec]
  obtain ⟨bd, d1, d2, d3, d4⟩ := sizeBytes_spec (n := w.dictionarySize) (by omega)
  obtain ⟨bp, p1, p2, p3, p4⟩ := sizeBytes_spec (n := 0) (by omega)
  obtain ⟨bt, t1, t2, t3, t4⟩ := sizeBytes_spec (n := w.targetLength) (by omega)
  obtain ⟨b1, q1, q2, q3, q4⟩ := sizeBytes_spec (n := w.data.length) (by omega)
  obtain ⟨b2, r1, r2, r3, r4⟩ := sizeBytes_spec (n := w.inst.length) (by omega)
  obtain ⟨b3, s1, s2, s3, s4⟩ := sizeBytes_spec (n := w.addr.length) (by omega)
  have hcks : ∃ bs, checksumBytes w.checksum = .ok bs ∧ bs.length ≤ 5 ∧
      checksumLength w.checksum = bs.length ∧ ChecksumField w.checksum bs := by
    cases hk : w.checksum with
    | none => exact ⟨[], rfl, by simp, rfl, rfl⟩
    | some v =>
      obtain ⟨bs, k1, k2, k3, k4, k5⟩ := checksumBytes_spec (hlt v hk)
      exact ⟨bs, k1, k4, k5, k2, k3⟩
  obtain ⟨bc, c1, c2, c3, c4⟩ := hcks
  have hdl : w.deltaLength = (bt ++ [0x00] ++ b1 ++ b2 ++ b3 ++ bc).length +
      (w.data.length + (w.inst.length + 0) + w.addr.length) := by
    simp only [deltaLength, t4, q4, r4, s4, c3, List.length_append, List.length_cons, List.length_nil]
    omega
  obtain ⟨bl, l1, l2, l3, l4⟩ := sizeBytes_spec (n := w.deltaLength) (by
    rw [hdl]; simp only [List.length_append, List.length_cons, List.length_nil]; omega)
  have hdb : w.deltaBytes = .ok (bt ++ [0x00] ++ b1 ++ b2 ++ b3 ++ bc ++ w.data ++ w.inst ++ w.addr) := by
    simp only [deltaBytes, t1, q1, r1, s1, c1]; rfl
  have hsec : ∀ ext : Bool, (w.interleaved = true ∨ w.checksum ≠ none → ext = true) → SectionCode ext items w.data w.inst w.addr := by
    intro ext hext
    unfold SectionCode
    cases hil : w.interleaved
    · rw [if_neg]
      · rw [h6, h7, h8]; simp [hil, sec]
      · rintro ⟨_, e1, e2⟩
        rw [h7, hil] at e1
        rw [h8, hil] at e2
        simp only [Bool.false_eq_true, if_false, hitems, List.flatMap_append, List.append_eq_nil_iff,
          List.flatMap_cons, List.flatMap_nil] at e1 e2
        match x, hxo with
        | .data bs, hx => exact hx e1.2.1
        | .address bs, hx => exact hx e2.2.1
    · rw [if_pos ⟨hext (Or.inl hil), by rw [h7, hil]; rfl, by rw [h8, hil]; rfl⟩, h6, hil]
      rfl
  have htight : Tight items ops := by
    right
    refine ⟨?_, fo, o, hops, ho⟩
    match x, hxo with
    | .data bs, _ => exact ⟨front, bs, Or.inl hitems⟩
    | .address bs, _ => exact ⟨front, bs, Or.inr hitems⟩
  have hprog' : ∀ n, Program c strict [] n items ops → Program c library [] n items ops := by
    intro n h
    have key : ∀ {hist : List Nat} {n : Nat} {items : List Item} {ops : List Op}, Program c strict hist n items ops →
        Program c library hist n items ops := by
      intro hist n items ops h
      induction h with
      | nil => exact .nil
      | cons h1 h2 _ ih => exact .cons h1 h2 ih
      | dangling h1 => exact absurd h1 (by decide)
    exact key h
  refine ⟨[if w.checksum.isSome then 0x05 else 0x01] ++ (bd ++ bp) ++ bl ++ (bt ++ [0] ++ b1 ++ b2 ++ b3 ++ bc) ++
    (w.data ++ w.inst ++ w.addr), ?_, ?_, ?_, ?_, ⟨?_, ?_⟩, ?_⟩
  · simp only [windowBytes, d1, p1, l1, hdb, bind, Except.bind]
    rw [if_neg]
    · simp [List.append_assoc]
    · rw [hdl]; simp only [List.length_append, List.length_cons, List.length_nil, ne_eq, Decidable.not_not]; omega
  · have hbp : bp.length = 1 := by rw [← p4]; decide
    simp only [List.length_append, List.length_cons, List.length_nil]
    omega
  · rw [h6]
    obtain ⟨op, rest, e⟩ := hprog.head (by rw [hitems]; simp)
    rw [e]; simp
  · refine ⟨Reading.mk (if w.checksum.isSome then 0x05 else 0x01) (bd ++ bp) bl bt 0 b1 b2 b3 bc
      (w.data ++ w.inst ++ w.addr) (by simp [List.append_assoc]) ?_ (fun _ => ⟨bd, bp, rfl, d2.1, p2.1⟩) l2.1 t2.1 q2.1 r2.1 s2.1,
      ?_, ?_, c4⟩
    · intro h
      exfalso
      revert h
      cases w.checksum.isSome <;> decide
    · simp only [q2.2.1, s2.2.1]
      constructor
      · intro hil; rw [h7, h8, hil]; exact ⟨rfl, rfl⟩
      · rintro ⟨e1, e2⟩
        cases hil : w.interleaved
        · exfalso
          replace e1 := List.length_eq_zero_iff.1 e1
          replace e2 := List.length_eq_zero_iff.1 e2
          rw [h7, hil] at e1
          rw [h8, hil] at e2
          simp only [Bool.false_eq_true, if_false, hitems, List.flatMap_append, List.append_eq_nil_iff,
            List.flatMap_cons, List.flatMap_nil] at e1 e2
          match x, hxo with
          | .data bs, hx => exact hx e1.2.1
          | .address bs, hx => exact hx e2.2.1
        · rfl
    · exact ⟨rfl, rfl⟩
  · refine ⟨if w.checksum.isSome then 0x05 else 0x01, bd, bp, bl ++ ((bt ++ [0] ++ b1 ++ b2 ++ b3 ++ bc) ++
      (w.data ++ w.inst ++ w.addr)), by simp [List.append_assoc], ?_, by rw [← h2]; exact d2, p2⟩
    cases w.checksum.isSome <;> decide
  · intro ext hext
    refine ⟨Reading.mk (if w.checksum.isSome then 0x05 else 0x01) (bd ++ bp) bl bt 0 b1 b2 b3 bc
      (w.data ++ w.inst ++ w.addr) (by simp [List.append_assoc]) ?_ (fun _ => ⟨bd, bp, rfl, d2.1, p2.1⟩) l2.1 t2.1 q2.1 r2.1 s2.1,
      ?_, ?_, hprog' _ hprog, ⟨t2.2.1.trans h3, htight⟩, w.data, w.inst, w.addr, hsec ext hext, rfl, q2.2.1, r2.2.1, s2.2.1⟩
    · intro h
      exfalso
      revert h
      cases w.checksum.isSome <;> decide
    · refine Or.inr ⟨?_, bd, bp, rfl, d2.1, p2.1, d2.2.1.trans h2⟩
      show (if w.checksum.isSome then 0x05 else 0x01 : UInt8) &&& 3 ≠ 0
      cases w.checksum.isSome <;> decide
    · show if ext = true ∧ (if w.checksum.isSome then 0x05 else 0x01 : UInt8) &&& 4 ≠ 0 then IsVarint bc else bc = []
      cases hk : w.checksum with
      | none =>
        rw [hk] at c4
        rw [if_neg (by rintro ⟨_, h⟩; exact absurd h (by simp only [Option.isSome_none, Bool.false_eq_true, if_false]; decide))]
        exact c4
      | some v =>
        rw [hk] at c4
        rw [if_pos ⟨hext (Or.inr (by rw [hk]; simp)), by simp only [Option.isSome_some, if_true]; decide⟩]
        exact c4.1
  · intro ext s prev hext hck hwin hfile
    have c5 : ChecksumCode (ext && (((if w.checksum.isSome then 0x05 else 0x01 : UInt8)) &&& 4 != 0)) T bc := by
      cases hk : w.checksum with
      | none => rw [hk] at c4; cases ext <;> exact c4
      | some v =>
        rw [hk] at c4
        have he : ext = true := hext (Or.inr (by rw [hk]; simp))
        simp only [he, ChecksumCode, Option.isSome_some, if_true]
        rw [if_pos (by decide)]
        exact ⟨c4.1, c4.2.trans (hck v hk)⟩
    refine WindowCode.mk (ind := if w.checksum.isSome then 0x05 else 0x01) (di := 0) (seg := bd ++ bp)
      (src := (dict.drop 0).take dict.length) (dl := bl) (tlen := bt) (dlen := b1) (ilen := b2) (alen := b3) (cks := bc)
      (data := w.data) (inst := w.inst) (addr := w.addr) (items := items) (ops := ops) (surplus := 0)
      ?_ ?_ ?_ ?_ hwin hfile ?_ (Or.inl rfl) ?_ (by decide) q2 r2 s2 c5 ?_ (Or.inr (Or.inl hnear)) hsum
    · refine .dict (len := dict.length) (pos := 0) ?_ (by rw [← hd] at h2; rw [← h2]; exact d2) p2 (by omega)
      cases w.checksum
      · rfl
      · simp only [Option.isSome_some, if_true]; decide
    · simpa [hd] using hprog
    · exact Or.inr htight
    · simpa using hexec
    · exact hsec ext hext
    · rw [hTs, ← h3]; exact t2
    · rw [← hdl]; exact l2

theorem carries_layout {interleaved : Bool} {checksum : Option Nat} {T out : Bytes} (h : Carries interleaved checksum out)
    (hck : ∀ v, checksum = some v → v = adlerOf T) : Layout interleaved checksum.isSome T out := by
  obtain ⟨R, h1, h2, h3⟩ := h
  refine ⟨R, h1, h2, ?_⟩
  cases checksum with
  | none => exact h3
  | some v => exact ⟨h3.1, h3.2.trans (hck v rfl)⟩

theorem adlerOf_lt (T : Bytes) : adlerOf T < 2 ^ 32 := by
  obtain ⟨l1, l2⟩ := adlerRun_lt (0, 0) ⟨by decide, by decide⟩ T
  rw [adlerOf, adlerValue]; omega

/-- A writer after `Init(d)`, with nothing written. -/
structure Ready (c : Coding) (maxMode : Nat) (m : InstructionMap) (d : Nat) (w : Writer) : Prop where
  inv : Inv c maxMode m d w [] []
  table : w.table = c.table
  maxMode : w.maxMode = maxMode

/-- Such a writer is determined by its layout and its checksum. -/
theorem Ready.eq {d : Nat} {w : Writer} (h : Ready c maxMode m d w) :
    w = { interleaved := w.interleaved, maxMode := maxMode, cache := AddrCache.ofHist c.near c.same [],
          dictionarySize := d, table := c.table, map := some m, checksum := w.checksum } := by
  obtain ⟨⟨h1, h2, h3, h4, h5, h6, h7, h8, h9, h10⟩, h11, h12⟩ := h
  have hl : w.lastOpcode = none := by
    generalize hi : ([] : List Item) = items at h5
    generalize ho : ([] : List Op) = ops at h5
    cases hlast : w.lastOpcode with
    | none => rfl
    | some i =>
      rw [hlast] at h5
      cases h5
      simp at hi
  cases w
  simp_all [sizes, addrs]

theorem Ready.addChecksum {d : Nat} {w : Writer} (h : Ready c maxMode m d w) (v : Nat) :
    Ready c maxMode m d (w.addChecksum v) := by
  obtain ⟨⟨h1, h2, h3, h4, h5, h6, h7, h8, h9, h10, h13⟩, h11, h12⟩ := h
  exact ⟨⟨h1, h2, h3, h4, h5, h6, h7, h8, h9, h10, h13⟩, h11, h12⟩

theorem init_ready (u : Usable c maxMode m) {w : Writer} (d : Nat)
    (ht : w.table = c.table) (hmm : w.maxMode = maxMode) (hmap : w.map = none ∨ w.map = some m)
    (hc : w.cache = AddrCache.new c.near c.same ∨ ∃ hist, w.cache = AddrCache.ofHist c.near c.same hist)
    (h1 : w.inst = []) (h2 : w.data = []) (h3 : w.addr = []) :
    ∃ w', w.init d = .ok (true, w') ∧ w'.interleaved = w.interleaved ∧ w'.checksum = w.checksum ∧
      Ready c maxMode m d w' := by
  obtain ⟨w', k1, k2, k3, k4, k5, k6⟩ := init_inv u d ht hmm hmap hc h1 h2 h3
  exact ⟨w', k1, k2, k3, k6, k4.trans ht, k5.trans hmm⟩

theorem Ready.init (u : Usable c maxMode m) {d : Nat} {w : Writer} (h : Ready c maxMode m d w) :
    w.init d = .ok (true, w) := by
  obtain ⟨w', k1, k2, k3, k4⟩ := init_ready u (w := w) d h.table h.maxMode (Or.inr h.inv.map)
    (Or.inr ⟨_, h.inv.cache⟩) h.inv.inst (by rw [h.inv.data]; simp) (by rw [h.inv.addr]; simp)
  rw [k1, h.eq, k4.eq, k2, k3]

/-- `ops` can be written, one after the other, when `here` bytes precede them. -/
def WritableAll : Nat → List Op → Prop
  | _, [] => True
  | here, o :: ops => Writable here o ∧ WritableAll (here + o.size) ops

theorem calls_ok (u : Usable c maxMode m) {d : Nat} {w : Writer} {done todo : List Op} {items : List Item}
    (hi : Inv c maxMode m d w done items) (hw : WritableAll (d + sizes done) todo) (cs : List CoderCall) :
    ∃ w' items', w.calls (todo.map Op.call ++ cs) = w'.calls cs ∧ w'.interleaved = w.interleaved ∧
      w'.checksum = w.checksum ∧ w'.table = w.table ∧ w'.maxMode = w.maxMode ∧
      Inv c maxMode m d w' (done ++ todo) items' := by
  induction todo generalizing w done items with
  | nil => exact ⟨w, items, rfl, rfl, rfl, rfl, rfl, by simpa using hi⟩
  | cons o ops ih =>
    obtain ⟨w1, k1, k2, k3, k4, k5, items1, k6⟩ := call_ok u hi hw.1
    obtain ⟨w2, items2, j1, j2, j3, j4, j5, j6⟩ := ih k6 (by
      have := hw.2
      rw [sizes_append]
      simpa [sizes, Nat.add_assoc] using this)
    refine ⟨w2, items2, ?_, j2.trans k2, j3.trans k3, j4.trans k4, j5.trans k5, by simpa using j6⟩
    simp only [List.map_cons, List.cons_append, calls, k1, j1, Except.map, List.nil_append]
    cases w2.calls cs with
    | error => rfl
    | ok r => rfl

/-- The window written for the instructions `ops`. -/
theorem window_ok (u : Usable c maxMode m) {w : Writer} {ops : List Op} (hne : ops ≠ []) {ext : Bool} {s : Settings}
    {dict prev T : Bytes} (hr : Ready c maxMode m dict.length w) (hw : WritableAll dict.length ops)
    (hexec : execOps dict ops = dict ++ T)
    (hsize : dict.length + T.length ≤ int32Max) (hcost : costs ops + 26 ≤ int32Max)
    (hext : w.interleaved = true ∨ w.checksum ≠ none → ext = true)
    (hck : ∀ v, w.checksum = some v → v = adlerOf T)
    (hwin : T.length ≤ s.maxWindow) (hfile : prev.length + T.length ≤ s.maxFile) :
    ∃ out, w.calls (ops.map Op.call ++ [.output]) = .ok (out, w) ∧
      WindowCode c ext strict s dict prev out T ∧ out.length ≤ costs ops + 38 ∧
      Layout w.interleaved w.checksum.isSome T out ∧ SourceIs dict.length out ∧
      ∃ (R : Reading out) (items : List Item), WrittenAs c ext R dict.length items ops := by
  obtain ⟨w1, items, k1, k2, k3, k4, k5, k6⟩ := calls_ok u hr.inv (todo := ops) (by simpa [sizes] using hw) [.output]
  simp only [List.nil_append] at k6
  obtain ⟨out, j1, j3, j4, j5, j6, j2⟩ := windowBytes_any k6 hne rfl hexec hsize hcost
    (by rw [k3]; intro v hv; rw [hck v hv]; exact adlerOf_lt T) u.near u.sum
  replace j2 := j2 ext s prev (by rw [k2, k3]; exact hext) (by rw [k3]; exact hck) hwin hfile
  rw [k2, k3] at j5
  replace j5 := carries_layout j5 hck
  obtain ⟨R, hR⟩ := j6.2 ext (by rw [k2, k3]; exact hext)
  refine ⟨out, ?_, j2, j3, j5, j6.1, R, items, hR⟩
  have hinit : ({ w1 with data := [], inst := [], addr := [] } : Writer).init w1.dictionarySize = .ok (true, w) := by
    obtain ⟨w2, i1, i2, i3, i4⟩ := init_ready u (w := { w1 with data := [], inst := [], addr := [] })
      w1.dictionarySize
      (k4.trans hr.table) (k5.trans hr.maxMode) (Or.inr k6.map) (Or.inr ⟨_, k6.cache⟩) rfl rfl rfl
    rw [i1, hr.eq, i4.eq, i2, i3]
    simp only [k2, k3, k6.dict]
  rw [k1]
  simp only [calls, call, output, if_neg j4, j1, hinit, Except.map, List.append_nil]

/-- `Output` with nothing written. -/
theorem output_nothing (u : Usable c maxMode m) {d : Nat} {w : Writer} (hr : Ready c maxMode m d w) :
    w.output = .ok ([], w) := by
  have hi : w.inst = [] := hr.inv.inst
  simp only [output, if_pos hi, hr.inv.dict, hr.init u]

end Writer
end Vcd
