import Verif.Spec.Rfc
import Verif.Proof.Body

/-!
# `DecodeBody` and the grammar of window bodies
-/

namespace Vcd
open Spec

/-! ### One instruction -/

/-- An instruction whose type, size and mode are known: its operand. -/
inductive OpCode (n s : Nat) (hist : List Nat) (here : Nat) (ty m : UInt8) (sz : Nat) : Item → Op → Prop
  | add {bs} : ty = vcdAdd → bs.length = sz → OpCode n s hist here ty m sz (.data bs) (.add bs)
  | run {b : UInt8} : ty = vcdRun → OpCode n s hist here ty m sz (.data [b]) (.run b sz)
  | copy {bs a} : ty = vcdCopy → AddrCode n s hist here m.toNat bs a → a < here → here ≤ 2147483647 →
      OpCode n s hist here ty m sz (.address bs) (.copy a sz)

theorem OpCode.size {n s hist here ty m sz it o} (h : OpCode n s hist here ty m sz it o) : o.size = sz := by
  cases h <;> simp_all [Op.size]

/-- The stream an instruction takes its operand from. -/
def operandStream (env : BodyEnv) (b : Body) (ty : UInt8) (r : Bytes) : Bytes :=
  if env.hdr.interleaved then r else if ty = vcdCopy then b.addr else b.data

/-- The current position in source segment and target window. -/
def BodyEnv.here (env : BodyEnv) (decoded : Bytes) : Nat := env.hdr.srcLen + (decoded.length - env.startPos)

theorem execute_sound {env : BodyEnv} {b : Body} (hw : WinInv env b.decoded) {n s : Nat} {hist : List Nat}
    (hns : n + s ≤ 254) (hc : b.cache = AddrCache.ofHist n s hist) {ty : UInt8} {sz : Nat}
    {m : UInt8} {r rest : Bytes} {c : AddrCache} {d : Bytes}
    (hsz : sz + (b.decoded.length - env.startPos) ≤ env.hdr.targetLen)
    (h : execute env b ty sz m r = .ok rest c d) :
    ∃ it o, OpCode n s hist (env.here b.decoded) ty m sz it o ∧ operandStream env b ty r = it.bytes ++ rest ∧
      c = AddrCache.ofHist n s (hist ++ o.addrs) ∧
      (∃ bytes, d = b.decoded ++ bytes ∧ bytes.length = sz) ∧
      env.super d = o.apply (env.super b.decoded) ∧ (n ≤ 253 ∨ o.addrs = []) := by
  have hstart := hw.start
  have app : ∀ bytes : Bytes, bytes.length = sz →
      appendTarget env b.decoded bytes = .ok (b.decoded ++ bytes) := by
    intro bytes hb
    exact appendTarget_ok (by omega)
  unfold execute at h
  simp only at h
  unfold operandStream
  by_cases h1 : ty = vcdAdd
  · have hne : ty ≠ vcdCopy := by rw [h1]; decide
    rw [if_neg hne]
    rw [if_pos h1] at h
    obtain ⟨st, hst⟩ : ∃ st, st = if env.hdr.interleaved = true then r else b.data := ⟨_, rfl⟩
    rw [← hst] at h ⊢
    unfold decodeAdd at h
    split at h
    · simp at h
    · rw [app _ (by simp; omega)] at h
      simp only [Exec.ofAppend, Exec.ok.injEq] at h
      obtain ⟨rfl, rfl, rfl⟩ := h
      refine ⟨.data (st.take sz), .add (st.take sz), .add h1 (by simp; omega), ?_, ?_, ⟨_, rfl, by simp; omega⟩, ?_, Or.inr rfl⟩
      · simp [Item.bytes]
      · simp [Op.addrs, hc]
      · rw [hw.super_append]; rfl
  rw [if_neg h1] at h
  by_cases h2 : ty = vcdRun
  · have hne : ty ≠ vcdCopy := by rw [h2]; decide
    rw [if_neg hne]
    rw [if_pos h2] at h
    obtain ⟨st, hst⟩ : ∃ st, st = if env.hdr.interleaved = true then r else b.data := ⟨_, rfl⟩
    rw [← hst] at h ⊢
    unfold decodeRun at h
    split at h
    · simp at h
    · rename_i x xs
      rw [app _ (by simp)] at h
      simp only [Exec.ofAppend, Exec.ok.injEq] at h
      obtain ⟨rfl, rfl, rfl⟩ := h
      refine ⟨.data [x], .run x sz, .run h2, ?_, ?_, ⟨_, rfl, by simp⟩, ?_, Or.inr rfl⟩
      · simp [Item.bytes]
      · simp [Op.addrs, hc]
      · rw [hw.super_append]; rfl
  rw [if_neg h2] at h
  by_cases h3 : ty = vcdCopy
  · rw [if_pos h3] at h ⊢
    obtain ⟨st, hst⟩ : ∃ st, st = if env.hdr.interleaved = true then r else b.addr := ⟨_, rfl⟩
    rw [← hst] at h ⊢
    unfold decodeCopy at h
    simp only [targetBytesDecoded_eq hstart] at h
    have hb1 := hw.srcLe
    have hb2 := hw.tgtLe
    have hb3 := hw.room
    have hle : env.hdr.srcLen + (b.decoded.length - env.startPos) ≤ 2147483647 := by
      by_cases hle : env.hdr.srcLen + (b.decoded.length - env.startPos) ≤ 2147483647
      · exact hle
      · exfalso
        have := toInt32_neg (n := env.hdr.srcLen + (b.decoded.length - env.startPos))
          (by omega) (by omega)
        have e : b.cache.decodeAddress (toInt32 (env.hdr.srcLen + (b.decoded.length - env.startPos))) m.toNat st
            = .error := by
          unfold AddrCache.decodeAddress
          rw [if_pos this]
        rw [e] at h
        simp at h
    rw [toInt32_of_lt hle, hc] at h
    cases hd : (AddrCache.ofHist n s hist).decodeAddress
        ((env.hdr.srcLen + (b.decoded.length - env.startPos) : Nat) : Int) m.toNat st with
    | error => rw [hd] at h; simp at h
    | endOfData => rw [hd] at h; simp at h
    | fault f => rw [hd] at h; simp at h
    | ok a rest' c' =>
      rw [hd] at h
      simp only at h
      have hn : n ≤ 253 := AddrCache.decodeAddress_near hns (UInt8.toNat_lt m) hd
      obtain ⟨ha, hc', bs, hbs, hac⟩ := AddrCache.decodeAddress_sound hn hns hd
      rw [copyBytes_eq hw ha hsz] at h
      simp only [Exec.ofAppend, Exec.ok.injEq] at h
      obtain ⟨rfl, rfl, rfl⟩ := h
      refine ⟨.address bs, .copy a sz, .copy h3 hac ha hle, hbs, hc', ⟨_, rfl, by simp⟩, ?_, Or.inl hn⟩
      rw [hw.super_append, Op.apply, extend_eq]
  · simp [h3] at h

theorem execute_complete {env : BodyEnv} {b : Body} (hw : WinInv env b.decoded) {n s : Nat} {hist : List Nat}
    (hns : n + s ≤ 254) (hc : b.cache = AddrCache.ofHist n s hist) {ty : UInt8} {sz : Nat}
    {m : UInt8} {r rest : Bytes} {it : Item} {o : Op}
    (hsz : sz + (b.decoded.length - env.startPos) ≤ env.hdr.targetLen)
    (ho : OpCode n s hist (env.here b.decoded) ty m sz it o)
    (hst : operandStream env b ty r = it.bytes ++ rest) (hn : n ≤ 253 ∨ o.addrs = []) :
    ∃ bytes, execute env b ty sz m r = .ok rest (AddrCache.ofHist n s (hist ++ o.addrs)) (b.decoded ++ bytes) ∧
      bytes.length = sz ∧ env.super (b.decoded ++ bytes) = o.apply (env.super b.decoded) := by
  have hstart := hw.start
  have app : ∀ bytes : Bytes, bytes.length = sz →
      appendTarget env b.decoded bytes = .ok (b.decoded ++ bytes) := by
    intro bytes hb
    exact appendTarget_ok (by omega)
  unfold execute
  simp only
  unfold operandStream at hst
  cases ho with
  | @add bs h1 h2 =>
    have hne : ty ≠ vcdCopy := by rw [h1]; decide
    rw [if_neg hne] at hst
    rw [if_pos h1, hst]
    refine ⟨bs, ?_, h2, ?_⟩
    · unfold decodeAdd
      rw [show (Item.data bs).bytes = bs from rfl, if_neg (by simp; omega), List.drop_left' h2, List.take_left' h2, app _ h2]
      simp [Exec.ofAppend, Op.addrs, hc]
    · rw [hw.super_append]; rfl
  | @run x h1 =>
    have hne : ty ≠ vcdCopy := by rw [h1]; decide
    have hne' : ty ≠ vcdAdd := by rw [h1]; decide
    rw [if_neg hne] at hst
    rw [if_neg hne', if_pos h1, hst]
    refine ⟨List.replicate sz x, ?_, by simp, ?_⟩
    · simp only [Item.bytes, List.singleton_append, decodeRun]
      rw [app _ (by simp)]
      simp [Exec.ofAppend, Op.addrs, hc]
    · rw [hw.super_append]; rfl
  | @copy bs a h1 h2 h3 h4 =>
    have hne : ty ≠ vcdRun := by rw [h1]; decide
    have hne' : ty ≠ vcdAdd := by rw [h1]; decide
    rw [if_pos h1] at hst
    rw [if_neg hne', if_neg hne, if_pos h1, hst]
    refine ⟨copied (env.super b.decoded) a sz, ?_, by simp, ?_⟩
    · unfold decodeCopy
      simp only [targetBytesDecoded_eq hstart]
      unfold BodyEnv.here at h2 h3 h4
      have hn : n ≤ 253 := hn.resolve_right (by simp [Op.addrs])
      rw [toInt32_of_lt h4, hc, Item.bytes, AddrCache.decodeAddress_complete hn hns h3 h4 h2]
      simp only
      rw [copyBytes_eq hw h3 hsz]
      rfl
    · rw [hw.super_append, Op.apply, extend_eq]

/-! ### Fetching -/

/-- `pending_second_instruction_` after reading an opcode. -/
def pend (t : CodeTable) (op : UInt8) : Option UInt8 :=
  if (t.second op).inst ≠ vcdNoop then some op else none

/-- The opcodes read to get at the next instruction. -/
inductive Fetch (t : CodeTable) : Option UInt8 → Bytes → Half → Option UInt8 → Prop
  | pending {op} : Fetch t (some op) [] (t.second op) none
  | first {op} : (t.first op).inst ≠ vcdNoop → Fetch t none [op] (t.first op) (pend t op)
  | skip {op pre h p} : (t.first op).inst = vcdNoop → Fetch t (pend t op) pre h p → Fetch t none (op :: pre) h p

theorem fetchHalf_sound {t : CodeTable} {s : Bytes} {p : Option UInt8} {h p' r}
    (hf : fetchHalf t s p = some (h, p', r)) : ∃ pre, s = pre ++ r ∧ Fetch t p pre h p' := by
  induction s generalizing p with
  | nil =>
    cases p with
    | none => simp [fetchHalf] at hf
    | some op =>
      rw [fetchHalf] at hf
      simp only [Option.some.injEq, Prod.mk.injEq] at hf
      obtain ⟨rfl, rfl, rfl⟩ := hf
      exact ⟨[], rfl, .pending⟩
  | cons op s ih =>
    cases p with
    | some op' =>
      rw [fetchHalf] at hf
      simp only [Option.some.injEq, Prod.mk.injEq] at hf
      obtain ⟨rfl, rfl, rfl⟩ := hf
      exact ⟨[], rfl, .pending⟩
    | none =>
      rw [fetchHalf] at hf
      by_cases h0 : (t.first op).inst = vcdNoop
      · rw [if_pos h0] at hf
        obtain ⟨pre, h1, h2⟩ := ih hf
        exact ⟨op :: pre, by simp [h1], .skip h0 h2⟩
      · rw [if_neg h0] at hf
        simp only [Option.some.injEq, Prod.mk.injEq] at hf
        obtain ⟨rfl, rfl, rfl⟩ := hf
        exact ⟨[op], rfl, .first h0⟩

theorem fetchHalf_complete {t : CodeTable} {p : Option UInt8} {pre : Bytes} {h : Half} {p' : Option UInt8}
    (hf : Fetch t p pre h p') (r : Bytes) : fetchHalf t (pre ++ r) p = some (h, p', r) := by
  induction hf with
  | pending => cases r <;> rfl
  | first h0 => rw [List.singleton_append, fetchHalf, if_neg h0]; rfl
  | skip h0 _ ih => rw [List.cons_append, fetchHalf, if_pos h0]; exact ih

theorem sizeCode_iff_parse {s : Bytes} {v : Nat} {r : Bytes} :
    parseVarint32 s = .ok v r ↔ ∃ bs, s = bs ++ r ∧ NumCode bs v := by
  have := parseVarint_ok_iff maxVal32 (by decide) s v r
  rw [parseVarint32, this]
  constructor
  · rintro ⟨bs, h1, h2, h3, h4⟩; exact ⟨bs, h1, h2, h3, h4⟩
  · rintro ⟨bs, h1, h2, h3, h4⟩; exact ⟨bs, h1, h2, h3, h4⟩

theorem getNext_sound {t : CodeTable} {p : Option UInt8} {s : Bytes} {ty sz m r p'}
    (h : getNextInstruction t p s = .inst ty sz m r p') :
    ∃ pre hf sb, s = pre ++ sb ++ r ∧ Fetch t p pre hf p' ∧ hf.inst = ty ∧ hf.mode = m ∧ SizeCode hf sb sz := by
  unfold getNextInstruction at h
  cases hf : fetchHalf t s p with
  | none => simp [hf] at h
  | some x =>
    obtain ⟨hh, p0, s'⟩ := x
    obtain ⟨pre, h1, h2⟩ := fetchHalf_sound hf
    simp only [hf] at h
    split at h
    · rename_i h0
      cases hp : parseVarint32 s' with
      | endOfData => simp [hp] at h
      | error => simp [hp] at h
      | ok v r' =>
        obtain ⟨bs, h3, h4⟩ := sizeCode_iff_parse.1 hp
        simp only [hp, NextInstruction.inst.injEq] at h
        obtain ⟨rfl, rfl, rfl, rfl, rfl⟩ := h
        exact ⟨pre, hh, bs, by rw [h1, h3, List.append_assoc], h2, rfl, rfl, Or.inl ⟨h0, h4⟩⟩
    · rename_i h0
      simp only [NextInstruction.inst.injEq] at h
      obtain ⟨rfl, rfl, rfl, rfl, rfl⟩ := h
      exact ⟨pre, hh, [], by rw [h1]; simp, h2, rfl, rfl, Or.inr ⟨h0, rfl, rfl⟩⟩

theorem getNext_complete {t : CodeTable} {p : Option UInt8} {pre sb r : Bytes} {hf : Half} {p' : Option UInt8}
    {sz : Nat} (h : Fetch t p pre hf p') (hs : SizeCode hf sb sz) :
    getNextInstruction t p (pre ++ sb ++ r) = .inst hf.inst sz hf.mode r p' := by
  unfold getNextInstruction
  rw [List.append_assoc, fetchHalf_complete h]
  simp only
  rcases hs with ⟨h0, h1⟩ | ⟨h0, rfl, rfl⟩
  · rw [if_pos h0, sizeCode_iff_parse.2 ⟨sb, rfl, h1⟩]
  · rw [if_neg h0]; rfl

/-! ### Runs -/

/-- The instructions executed by the loop, with the pending second instruction before and after. -/
inductive Run (c : Coding) : Option UInt8 → List Nat → Nat → List Item → List Op → Option UInt8 → Prop
  | nil {p hist here} : Run c p hist here [] [] p
  | step {p pre h p1 sb sz it o hist here items ops p'} :
      Fetch c.table p pre h p1 → SizeCode h sb sz →
      OpCode c.near c.same hist here h.inst h.mode sz it o →
      Run c p1 (hist ++ o.addrs) (here + o.size) items ops p' →
      Run c p hist here (pre.map .opcode ++ ([.size sb, it] ++ items)) (o :: ops) p'

/-- The bytes that `items` take from the sections of `b`, leaving those of `b'`. -/
def Consumes (inter : Bool) (items : List Item) (b b' : Body) : Prop :=
  if inter then b.inst = items.flatMap Item.bytes ++ b'.inst ∧ b.data = b'.data ∧ b.addr = b'.addr
  else b.inst = items.flatMap Item.inst ++ b'.inst ∧ b.data = items.flatMap Item.dataBytes ++ b'.data ∧
    b.addr = items.flatMap Item.addr ++ b'.addr

theorem Consumes.nil (inter : Bool) (b : Body) : Consumes inter [] b b := by
  cases inter <;> simp [Consumes]

theorem Consumes.append {inter : Bool} {i1 i2 : List Item} {a b c : Body} (h1 : Consumes inter i1 a b)
    (h2 : Consumes inter i2 b c) : Consumes inter (i1 ++ i2) a c := by
  cases inter <;> simp only [Consumes, Bool.false_eq_true, if_false, if_true] at h1 h2 ⊢
  · obtain ⟨a1, a2, a3⟩ := h1
    obtain ⟨b1, b2, b3⟩ := h2
    simp [a1, a2, a3, b1, b2, b3]
  · obtain ⟨a1, a2, a3⟩ := h1
    obtain ⟨b1, b2, b3⟩ := h2
    simp [a1, a2, a3, b1, b2, b3]

theorem flatMap_opcodes (pre : Bytes) :
    (pre.map Item.opcode).flatMap Item.bytes = pre ∧ (pre.map Item.opcode).flatMap Item.inst = pre ∧
    (pre.map Item.opcode).flatMap Item.dataBytes = [] ∧ (pre.map Item.opcode).flatMap Item.addr = [] := by
  induction pre with
  | nil => simp
  | cons b pre ih =>
    obtain ⟨h1, h2, h3, h4⟩ := ih
    simp only [List.map_cons, List.flatMap_cons, h1, h2, h3, h4]
    simp [Item.bytes, Item.inst, Item.dataBytes, Item.addr]

theorem OpCode.kind {n s hist here ty m sz it o} (h : OpCode n s hist here ty m sz it o) :
    (ty = vcdCopy → it.addr = it.bytes ∧ it.inst = [] ∧ it.dataBytes = []) ∧
    (ty ≠ vcdCopy → it.addr = [] ∧ it.inst = [] ∧ it.dataBytes = it.bytes) := by
  cases h with
  | add h1 => subst h1; exact ⟨fun h => absurd h (by decide), fun _ => ⟨rfl, rfl, rfl⟩⟩
  | run h1 => subst h1; exact ⟨fun h => absurd h (by decide), fun _ => ⟨rfl, rfl, rfl⟩⟩
  | copy h1 => subst h1; exact ⟨fun _ => ⟨rfl, rfl, rfl⟩, fun h => absurd rfl h⟩

theorem size_item (sb : Bytes) : (Item.size sb).bytes = sb ∧ (Item.size sb).inst = sb ∧
    (Item.size sb).dataBytes = [] ∧ (Item.size sb).addr = [] := ⟨rfl, rfl, rfl, rfl⟩

/-- One instruction takes its bytes from the sections. -/
theorem consumes_step {env : BodyEnv} {b : Body} {pre sb : Bytes} {it : Item} {o : Op} {r rest : Bytes}
    {n s hist here ty m sz p c d} (hop : OpCode n s hist here ty m sz it o)
    (hi : b.inst = pre ++ sb ++ r) (hst : operandStream env b ty r = it.bytes ++ rest) :
    Consumes env.hdr.interleaved (pre.map .opcode ++ [.size sb, it]) b
      (b.afterExec env ty r p rest c d) := by
  obtain ⟨f1, f2, f3, f4⟩ := flatMap_opcodes pre
  obtain ⟨k1, k2⟩ := hop.kind
  unfold operandStream at hst
  unfold Consumes Body.afterExec
  by_cases hint : env.hdr.interleaved = true
  · simp only [hint, if_true] at hst ⊢
    simp [List.flatMap_append, f1, size_item, hi, hst]
  · simp only [hint, Bool.false_eq_true, if_false] at hst ⊢
    by_cases hcp : ty = vcdCopy
    · obtain ⟨a1, a2, a3⟩ := k1 hcp
      simp only [hcp, if_true] at hst ⊢
      simp [List.flatMap_append, f2, f3, f4, a1, a2, a3, size_item, hi, hst]
    · obtain ⟨a1, a2, a3⟩ := k2 hcp
      simp only [hcp, if_false] at hst ⊢
      simp [List.flatMap_append, f2, f3, f4, a1, a2, a3, size_item, hi, hst]

/-- Conversely, the sections of a body that starts with the bytes of an instruction. -/
theorem consumes_inv {env : BodyEnv} {b b' : Body} {pre sb : Bytes} {it : Item} {items : List Item} {o : Op}
    {n s hist here ty m sz p c d} (hop : OpCode n s hist here ty m sz it o)
    (h : Consumes env.hdr.interleaved (pre.map .opcode ++ ([.size sb, it] ++ items)) b b') :
    ∃ r rest, b.inst = pre ++ sb ++ r ∧ operandStream env b ty r = it.bytes ++ rest ∧
      Consumes env.hdr.interleaved items (b.afterExec env ty r p rest c d) b' := by
  obtain ⟨f1, f2, f3, f4⟩ := flatMap_opcodes pre
  obtain ⟨k1, k2⟩ := hop.kind
  unfold operandStream
  unfold Consumes at h ⊢
  unfold Body.afterExec
  by_cases hint : env.hdr.interleaved = true
  · simp only [hint, if_true] at h ⊢
    obtain ⟨h1, h2, h3⟩ := h
    refine ⟨it.bytes ++ (items.flatMap Item.bytes ++ b'.inst), items.flatMap Item.bytes ++ b'.inst, ?_, rfl, rfl, h2, h3⟩
    simp [List.flatMap_append, f1, size_item, h1]
  · simp only [hint, Bool.false_eq_true, if_false] at h ⊢
    obtain ⟨h1, h2, h3⟩ := h
    by_cases hcp : ty = vcdCopy
    · obtain ⟨a1, a2, a3⟩ := k1 hcp
      refine ⟨items.flatMap Item.inst ++ b'.inst, items.flatMap Item.addr ++ b'.addr, ?_, ?_, ?_⟩
      · simp [List.flatMap_append, f2, a2, size_item, h1]
      · simp [hcp, List.flatMap_append, f4, a1, size_item, h3]
      · simp [hcp, List.flatMap_append, f3, a3, size_item, h2]
    · obtain ⟨a1, a2, a3⟩ := k2 hcp
      refine ⟨items.flatMap Item.inst ++ b'.inst, items.flatMap Item.dataBytes ++ b'.data, ?_, ?_, ?_⟩
      · simp [List.flatMap_append, f2, a2, size_item, h1]
      · simp [hcp, List.flatMap_append, f3, a3, size_item, h2]
      · simp [hcp, List.flatMap_append, f4, a1, size_item, h3]

theorem OpCode.operand {n s hist here ty m sz it o} (h : OpCode n s hist here ty m sz it o) :
    (∃ bs, it = .data bs) ∨ ∃ bs, it = .address bs := by
  cases h with
  | add => exact Or.inl ⟨_, rfl⟩
  | run => exact Or.inl ⟨_, rfl⟩
  | copy => exact Or.inr ⟨_, rfl⟩

theorem Spec.Tight.single {it : Item} {o : Op} {pre : List Item} (h : (∃ bs, it = .data bs) ∨ ∃ bs, it = .address bs)
    (hs : 0 < o.size) : Tight (pre ++ [it]) [o] := by
  right
  refine ⟨?_, [], o, rfl, hs⟩
  rcases h with ⟨bs, rfl⟩ | ⟨bs, rfl⟩
  · exact ⟨pre, bs, Or.inl rfl⟩
  · exact ⟨pre, bs, Or.inr rfl⟩

theorem Spec.Tight.extend {pre items : List Item} {o : Op} {ops : List Op} (hne : items ≠ []) (h : Tight items ops) :
    Tight (pre ++ items) (o :: ops) := by
  rcases h with h | ⟨⟨fr, bs, h1⟩, fr', o', h2, h3⟩
  · exact absurd h hne
  · right
    refine ⟨⟨pre ++ fr, bs, ?_⟩, o :: fr', o', by simp [h2], h3⟩
    rcases h1 with h1 | h1 <;> simp [h1]

/-- Every successful run of the loop is a `Run` that ends with the target complete. -/
theorem bodyRun_sound {env : BodyEnv} {n s : Nat} (hns : n + s ≤ 254) (b : Body) :
    ∀ (hist : List Nat) (b' : Body), b.cache = AddrCache.ofHist n s hist → WinInv env b.decoded →
    bodyRun env b = .ok b' →
    ∃ items ops, Run ⟨env.table, n, s⟩ b.pending hist (env.here b.decoded) items ops b'.pending ∧
      Consumes env.hdr.interleaved items b b' ∧ b'.cache = AddrCache.ofHist n s (hist ++ addrs ops) ∧
      env.super b'.decoded = execOps (env.super b.decoded) ops ∧
      b'.decoded.length = b.decoded.length + sizes ops ∧
      b'.decoded.length = env.startPos + env.hdr.targetLen ∧ Tight items ops ∧
      (b.decoded.length = env.startPos + env.hdr.targetLen → items = [] ∧ b' = b) ∧
      (∃ bytes, b'.decoded = b.decoded ++ bytes) ∧ (n ≤ 253 ∨ addrs ops = []) := by
  induction b using bodyRun_induct env with
  | h b ih =>
    intro hist b' hc hw h
    have hstart := hw.start
    have hroom := hw.room
    rw [bodyRun_eq] at h
    rw [targetBytesDecoded_eq hstart] at h
    split at h
    · rename_i hlt
      cases hg : getNextInstruction env.table b.pending b.inst with
      | error => simp [hg] at h
      | endOfData r p => simp [hg] at h
      | inst ty sz m r p =>
        simp only [hg] at h
        split at h
        · simp at h
        · rename_i hsz
          cases he : execute env b ty sz m r with
          | error => simp [he] at h
          | endOfData => simp [he] at h
          | fault f => simp [he] at h
          | ok rest c d =>
            simp only [he] at h
            have hsz' : sz + (b.decoded.length - env.startPos) ≤ env.hdr.targetLen := by omega
            obtain ⟨it, o, hop, hst, hc', ⟨bytes, hd, hbl⟩, hsup, hnear⟩ := execute_sound hw hns hc hsz' he
            obtain ⟨pre, hf, sb, hin, hfetch, rfl, rfl, hsc⟩ := getNext_sound hg
            obtain ⟨e1, e2⟩ := afterExec_cache env b hf.inst r p rest c d
            have hpend := (afterExec_inst (p := p) he).2
            have hw' : WinInv env (b.afterExec env hf.inst r p rest c d).decoded := by
              rw [e2, hd]; exact hw.append _ (by omega)
            obtain ⟨items, ops, r1, r2, r3, r4, r5, r6, r7, r8, r9, r10⟩ := ih _ _ _ _ _ _ _ _ hg he (hist ++ o.addrs) b'
              (by rw [e1, hc']) hw' h
            have hos := hop.size
            have hhere : env.here (b.afterExec env hf.inst r p rest c d).decoded = env.here b.decoded + o.size := by
              rw [e2, hd, hos]
              simp only [BodyEnv.here, List.length_append]
              omega
            rw [hhere, hpend] at r1
            refine ⟨_, _, .step hfetch hsc hop r1, ?_, ?_, ?_, ?_, r6, ?_, ?_, ?_, ?_⟩
            · rw [← List.append_assoc]
              exact (consumes_step hop hin hst).append r2
            · rw [r3]; simp [addrs]
            · rw [r4, e2, hsup]; rfl
            · rw [r5, e2, hd]; simp [sizes, hos]; omega
            · by_cases hne : items = []
              · subst hne
                have hops : ops = [] := by
                  generalize hits : ([] : List Item) = its at r1
                  cases r1 with
                  | nil => rfl
                  | step => simp at hits
                subst hops
                rw [List.append_nil]
                have : 0 < o.size := by
                  rw [hos]
                  have : b'.decoded.length = b.decoded.length + sz := by
                    rw [r5, e2, hd]; simp [sizes]; omega
                  omega
                have ht := Tight.single (pre := pre.map Item.opcode ++ [.size sb]) hop.operand this
                simpa using ht
              · have := Tight.extend (pre := pre.map Item.opcode ++ [.size sb, it]) (o := o) hne r7
                simpa using this
            · intro h0; omega
            · obtain ⟨by2, r9⟩ := r9
              exact ⟨bytes ++ by2, by rw [r9, e2, hd]; simp⟩
            · rcases hnear with h | h
              · exact Or.inl h
              · rcases r10 with h' | h'
                · exact Or.inl h'
                · exact Or.inr (by simp [addrs] at h' ⊢; exact ⟨h, h'⟩)
    · simp only [BodyResult.ok.injEq] at h
      subst h
      refine ⟨[], [], .nil, Consumes.nil _ _, by simp [hc, addrs], rfl, rfl, by omega, Or.inl rfl, fun _ => ⟨rfl, rfl⟩, ⟨[], by simp⟩, Or.inr rfl⟩

theorem Spec.Tight.sizes_pos {items : List Item} {ops : List Op} (h : Tight items ops) (hne : items ≠ []) : 0 < sizes ops := by
  rcases h with h | ⟨_, fr, o, rfl, h⟩
  · exact absurd h hne
  · simp [sizes]; omega

theorem Run.nil_items {c : Coding} {p hist here ops p'} (h : Run c p hist here [] ops p') : ops = [] ∧ p = p' := by
  generalize hits : ([] : List Item) = its at h
  cases h with
  | nil => exact ⟨rfl, rfl⟩
  | step => simp at hits

theorem tail_last {α : Type} {pre items fr : List α} {x : α} (hne : items ≠ []) (h : pre ++ items = fr ++ [x]) :
    ∃ fr2, items = fr2 ++ [x] := by
  rw [← List.getLast?_eq_some_iff]
  have e1 := congrArg List.getLast? h
  rw [List.getLast?_append, List.getLast?_concat] at e1
  cases hl : items.getLast? with
  | none => exact absurd (List.getLast?_eq_none_iff.1 hl) hne
  | some y => rw [hl] at e1; simpa using e1

theorem Spec.Tight.tail {pre items : List Item} {o : Op} {ops : List Op} (hne : items ≠ []) (hops : ops ≠ [])
    (h : Tight (pre ++ items) (o :: ops)) : Tight items ops := by
  rcases h with h | ⟨⟨fr, bs, h1⟩, fr', o', h2, h3⟩
  · simp at h; exact absurd h.2 hne
  · right
    have hlast : ∀ x : Item, pre ++ items = fr ++ [x] → ∃ fr2, items = fr2 ++ [x] :=
      fun x hx => tail_last hne hx
    refine ⟨?_, ?_⟩
    · rcases h1 with h1 | h1
      · obtain ⟨fr2, hf⟩ := hlast _ h1; exact ⟨fr2, bs, Or.inl hf⟩
      · obtain ⟨fr2, hf⟩ := hlast _ h1; exact ⟨fr2, bs, Or.inr hf⟩
    · obtain ⟨fr2, hf⟩ := tail_last (pre := [o]) hops (by simpa using h2)
      exact ⟨fr2, o', hf, h3⟩

theorem Run.ops_ne {c : Coding} {p hist here items ops p'} (h : Run c p hist here items ops p') (hne : items ≠ []) :
    ops ≠ [] := by
  cases h with
  | nil => exact absurd rfl hne
  | step => simp

/-- Every `Run` that ends with the target complete is performed by the loop. -/
theorem bodyRun_complete {env : BodyEnv} {n s : Nat} (hns : n + s ≤ 254)
    {p : Option UInt8} {hist : List Nat} {here : Nat} {items : List Item} {ops : List Op} {p' : Option UInt8}
    (hr : Run ⟨env.table, n, s⟩ p hist here items ops p') (hn : n ≤ 253 ∨ addrs ops = []) :
    ∀ (b b0 : Body), b.pending = p → b.cache = AddrCache.ofHist n s hist → WinInv env b.decoded →
    env.here b.decoded = here → b.decoded.length + sizes ops = env.startPos + env.hdr.targetLen →
    Tight items ops → Consumes env.hdr.interleaved items b b0 →
    ∃ b', bodyRun env b = .ok b' ∧ b'.inst = b0.inst ∧ b'.data = b0.data ∧ b'.addr = b0.addr ∧
      b'.cache = AddrCache.ofHist n s (hist ++ addrs ops) ∧ (∃ bytes, b'.decoded = b.decoded ++ bytes) ∧
      env.super b'.decoded = execOps (env.super b.decoded) ops ∧ b'.pending = p' := by
  generalize hcod : (⟨env.table, n, s⟩ : Coding) = cod at hr
  induction hr with
  | nil =>
    intro b b0 hp hc hw hh hlen ht hcon
    have hstart := hw.start
    have : b.inst = b0.inst ∧ b.data = b0.data ∧ b.addr = b0.addr := by
      unfold Consumes at hcon
      split at hcon <;> simpa using hcon
    refine ⟨b, ?_, this.1, this.2.1, this.2.2, by simp [hc, addrs], ⟨[], by simp⟩, rfl, hp⟩
    rw [bodyRun_eq, targetBytesDecoded_eq hstart, if_neg]
    simp [sizes] at hlen
    omega
  | @step p pre h p1 sb sz it o hist here items ops p' hfetch hsc hop hrun ih =>
    intro b b0 hp hc hw hh hlen ht hcon
    subst hcod
    have hstart := hw.start
    have hos := hop.size
    have hn1 : n ≤ 253 ∨ o.addrs = [] := hn.imp id (fun h => by simp [addrs] at h; exact h.1)
    have hn2 : n ≤ 253 ∨ addrs ops = [] := hn.imp id (fun h => by simp [addrs] at h ⊢; exact h.2)
    have hpos : 0 < sizes (o :: ops) := ht.sizes_pos (by simp)
    have hlen' : b.decoded.length + (o.size + sizes ops) = env.startPos + env.hdr.targetLen := by
      simpa [sizes] using hlen
    rw [bodyRun_eq, targetBytesDecoded_eq hstart, if_pos (by omega)]
    subst hh
    -- the result of the instruction does not depend on the fields chosen below
    obtain ⟨r0, rest0, hin0, hst0, _⟩ := consumes_inv (env := env) (p := p1) (c := b.cache) (d := []) hop hcon
    have hsz' : sz + (b.decoded.length - env.startPos) ≤ env.hdr.targetLen := by omega
    obtain ⟨bytes, hex, hbl, hsup⟩ := execute_complete hw hns hc hsz' hop hst0 hn1
    obtain ⟨r, rest, hin, hst, hcon'⟩ := consumes_inv (env := env) (p := p1)
      (c := AddrCache.ofHist n s (hist ++ o.addrs)) (d := b.decoded ++ bytes) hop hcon
    have hrr : r = r0 := by
      rw [hin] at hin0
      exact List.append_cancel_left hin0
    subst hrr
    have hrest : rest = rest0 := by
      rw [hst] at hst0
      exact List.append_cancel_left hst0
    subst hrest
    rw [hp, hin, getNext_complete hfetch hsc]
    simp only
    rw [if_neg (by omega), hex]
    simp only
    obtain ⟨e1, e2⟩ := afterExec_cache env b h.inst r p1 rest (AddrCache.ofHist n s (hist ++ o.addrs)) (b.decoded ++ bytes)
    have e3 : (b.afterExec env h.inst r p1 rest (AddrCache.ofHist n s (hist ++ o.addrs)) (b.decoded ++ bytes)).pending = p1 :=
      (afterExec_inst (p := p1) hex).2
    have ht' : Tight items ops := by
      by_cases hne : items = []
      · exact Or.inl hne
      · rw [← List.append_assoc] at ht
        exact Tight.tail hne (hrun.ops_ne hne) ht
    obtain ⟨b', q1, q2, q3, q4, q5, q6, q7, q8⟩ := ih hn2 _ b0 e3 e1
      (by rw [e2]; exact hw.append _ (by omega))
      (by rw [e2]; simp only [BodyEnv.here, List.length_append]; omega)
      (by rw [e2, List.length_append]; omega) ht' hcon'
    refine ⟨b', q1, q2, q3, q4, ?_, ?_, ?_, q8⟩
    · rw [q5]; simp [addrs]
    · obtain ⟨by2, q6⟩ := q6
      rw [e2] at q6
      exact ⟨bytes ++ by2, by rw [q6]; simp⟩
    · rw [q7, e2, hsup]; rfl

/-! ### Runs and programs -/

theorem vcdNoop_iff {b : UInt8} : b = vcdNoop ↔ b.toNat = 0 := by
  constructor
  · rintro rfl; rfl
  · intro h; exact UInt8.toNat_inj.1 h

theorem OpCode.half {c : Coding} {hist here} {h : Half} {sb sz it o} (hs : SizeCode h sb sz)
    (ho : OpCode c.near c.same hist here h.inst h.mode sz it o) : HalfCode c hist here h [.size sb, it] [o] := by
  cases ho with
  | add h1 h2 => subst h2; exact .add (by rw [h1]; rfl) hs
  | run h1 => exact .run (by rw [h1]; rfl) hs
  | copy h1 h2 h3 h4 => exact .copy (by rw [h1]; rfl) hs h2 h3 h4

theorem Spec.HalfCode.cases' {c : Coding} {hist here} {h : Half} {i o} (hh : HalfCode c hist here h i o) :
    (h.inst = vcdNoop ∧ i = [] ∧ o = []) ∨
    (h.inst ≠ vcdNoop ∧ ∃ sb sz it op, i = [.size sb, it] ∧ o = [op] ∧ SizeCode h sb sz ∧
      OpCode c.near c.same hist here h.inst h.mode sz it op) := by
  have hty : ∀ t : UInt8, h.inst.toNat = t.toNat → h.inst = t := fun t ht => UInt8.toNat_inj.1 ht
  cases hh with
  | noop h1 => exact Or.inl ⟨vcdNoop_iff.2 h1, rfl, rfl⟩
  | @add sb bs h1 h2 =>
    refine Or.inr ⟨fun h0 => ?_, sb, bs.length, .data bs, .add bs, rfl, rfl, h2, .add (hty vcdAdd h1) rfl⟩
    rw [vcdNoop_iff.1 h0] at h1; simp at h1
  | @run sb n b h1 h2 =>
    refine Or.inr ⟨fun h0 => ?_, sb, n, .data [b], .run b n, rfl, rfl, h2, .run (hty vcdRun h1)⟩
    rw [vcdNoop_iff.1 h0] at h1; simp at h1
  | @copy sb n bs a h1 h2 h3 h4 h5 =>
    refine Or.inr ⟨fun h0 => ?_, sb, n, .address bs, .copy a n, rfl, rfl, h2, .copy (hty vcdCopy h1) h3 h4 h5⟩
    rw [vcdNoop_iff.1 h0] at h1; simp at h1

theorem Spec.HalfCode.noop_of {c : Coding} {hist here} {h : Half} (h0 : h.inst = vcdNoop) : HalfCode c hist here h [] [] :=
  .noop (vcdNoop_iff.1 h0)

theorem pend_none {t : CodeTable} {op : UInt8} (h : pend t op = none) : (t.second op).inst = vcdNoop := by
  unfold pend at h
  split at h
  · simp at h
  · rename_i h'; simpa using h'

theorem pend_some {t : CodeTable} {op q : UInt8} (h : pend t op = some q) : q = op ∧ (t.second op).inst ≠ vcdNoop := by
  unfold pend at h
  split at h
  · rename_i h'; simp only [Option.some.injEq] at h; exact ⟨h.symm, h'⟩
  · simp at h

/-- What remains to be read when the second half of an opcode may be pending. -/
def Rest (c : Coding) (tol : Tolerance) (p : Option UInt8) (hist : List Nat) (here : Nat) (items : List Item)
    (ops : List Op) : Prop :=
  match p with
  | none => Program c tol hist here items ops
  | some op => (tol.dangling = true ∧ items = [] ∧ ops = []) ∨
      ∃ i2 o2 items' ops', items = i2 ++ items' ∧ ops = o2 ++ ops' ∧ HalfCode c hist here (c.table.second op) i2 o2 ∧
        Program c tol (hist ++ addrs o2) (here + sizes o2) items' ops'

theorem addrs_single (o : Op) : addrs [o] = o.addrs := by simp [addrs]
theorem sizes_single (o : Op) : sizes [o] = o.size := by simp [sizes]

/-- After the first half of an opcode. -/
theorem Rest.cons {c : Coding} {tol : Tolerance} {op : UInt8} {hist here i1 o1 items ops}
    (h1 : HalfCode c hist here (c.table.first op) i1 o1)
    (h : Rest c tol (pend c.table op) (hist ++ addrs o1) (here + sizes o1) items ops) :
    Program c tol hist here (.opcode op :: (i1 ++ items)) (o1 ++ ops) := by
  cases hp : pend c.table op with
  | none =>
    rw [hp] at h
    have h' : Program c tol (hist ++ addrs o1) (here + sizes o1) items ops := h
    have := Program.cons (tol := tol) h1 (HalfCode.noop_of (pend_none hp)) (items := items) (ops := ops)
      (by simpa [addrs, sizes] using h')
    simpa using this
  | some q =>
    rw [hp] at h
    obtain ⟨rfl, hne⟩ := pend_some hp
    rcases h with ⟨ht, rfl, rfl⟩ | ⟨i2, o2, items', ops', rfl, rfl, h2, h3⟩
    · simp only [List.append_nil]
      exact .dangling ht (fun h0 => hne (vcdNoop_iff.2 h0)) h1
    · have := Program.cons h1 h2 h3
      simpa [List.append_assoc] using this

theorem Run.rest {c : Coding} {tol : Tolerance} {p hist here items ops p'}
    (h : Run c p hist here items ops p') (htol : tol.dangling = true ∨ p' = none) :
    Rest c tol p hist here items ops := by
  induction h with
  | @nil p hist here =>
    cases p with
    | none => exact .nil
    | some op =>
      left
      rcases htol with h | h
      · exact ⟨h, rfl, rfl⟩
      · simp at h
  | @step p pre h p1 sb sz it o hist here items ops p' hfetch hsc hop hrun ih0 =>
    have ih := ih0 htol
    rw [← addrs_single, ← sizes_single] at ih
    have hhalf := hop.half hsc
    clear hrun ih0 htol
    induction hfetch with
    | @pending op =>
      right
      exact ⟨[.size sb, it], [o], items, ops, by simp, rfl, hhalf, ih⟩
    | @first op h0 =>
      have := Rest.cons hhalf ih
      simpa [Rest] using this
    | @skip op pre h p h0 hf ih2 =>
      have := ih2 hsc hop ih hhalf
      have h1 : HalfCode c hist here (c.table.first op) [] [] := HalfCode.noop_of h0
      have h2 := Rest.cons (op := op) h1 (items := pre.map .opcode ++ ([.size sb, it] ++ items)) (ops := o :: ops)
        (by simpa [addrs, sizes] using this)
      simpa [Rest] using h2

theorem Spec.Program.ops_nil {c : Coding} {tol : Tolerance} {hist here items ops} (h : Program c tol hist here items ops)
    (ho : ops = []) : ∀ it ∈ items, ∃ b, it = .opcode b := by
  induction h with
  | nil => simp
  | @cons hist here op i1 o1 i2 o2 items ops h1 h2 h3 ih =>
    simp only [List.append_eq_nil_iff] at ho
    obtain ⟨⟨ho1, ho2⟩, ho3⟩ := ho
    intro it hit
    simp only [List.mem_cons, List.mem_append] at hit
    rcases hit with rfl | (hit | hit) | hit
    · exact ⟨op, rfl⟩
    · rcases h1.cases' with ⟨_, h, _⟩ | ⟨_, _, _, _, _, _, h, _⟩
      · rw [h] at hit; simp at hit
      · rw [h] at ho1; simp at ho1
    · rcases h2.cases' with ⟨_, h, _⟩ | ⟨_, _, _, _, _, _, h, _⟩
      · rw [h] at hit; simp at hit
      · rw [h] at ho2; simp at ho2
    · exact ih ho3 it hit
  | @dangling hist here op i1 o1 ht h0 h1 =>
    intro it hit
    simp only [List.mem_cons] at hit
    rcases hit with rfl | hit
    · exact ⟨op, rfl⟩
    · rcases h1.cases' with ⟨_, h, _⟩ | ⟨_, _, _, _, _, _, h, _⟩
      · rw [h] at hit; simp at hit
      · rw [h] at ho; simp at ho

theorem Spec.Tight.tail' {c : Coding} {tol : Tolerance} {hist here} {pre items : List Item} {opre ops : List Op}
    (hp : Program c tol hist here items ops) (h : Tight (pre ++ items) (opre ++ ops)) : Tight items ops := by
  by_cases hne : items = []
  · exact Or.inl hne
  rcases h with h | ⟨⟨fr, bs, h1⟩, fr', o', h2, h3⟩
  · simp at h; exact absurd h.2 hne
  · right
    have hlast : ∀ x : Item, pre ++ items = fr ++ [x] → ∃ fr2, items = fr2 ++ [x] :=
      fun x hx => tail_last hne hx
    have hit : ∃ fr bs, items = fr ++ [Item.data bs] ∨ items = fr ++ [Item.address bs] := by
      rcases h1 with h1 | h1
      · obtain ⟨fr2, hf⟩ := hlast _ h1; exact ⟨fr2, bs, Or.inl hf⟩
      · obtain ⟨fr2, hf⟩ := hlast _ h1; exact ⟨fr2, bs, Or.inr hf⟩
    refine ⟨hit, ?_⟩
    have hops : ops ≠ [] := by
      intro h0
      obtain ⟨fr, bs, h | h⟩ := hit
      · obtain ⟨b, hb⟩ := hp.ops_nil h0 (.data bs) (by rw [h]; simp)
        simp at hb
      · obtain ⟨b, hb⟩ := hp.ops_nil h0 (.address bs) (by rw [h]; simp)
        simp at hb
    obtain ⟨fr2, hf⟩ := tail_last hops h2
    exact ⟨fr2, o', hf, h3⟩

/-- One more opcode in front that stands for nothing. -/
theorem Run.skip {c : Coding} {hist here items ops p'} {op : UInt8} (h0 : (c.table.first op).inst = vcdNoop)
    (h : Run c (pend c.table op) hist here items ops p') (hne : items ≠ []) :
    Run c none hist here (.opcode op :: items) ops p' := by
  cases h with
  | nil => exact absurd rfl hne
  | step hf hs ho hr => exact .step (.skip h0 hf) hs ho hr

theorem Spec.Program.run {c : Coding} {tol : Tolerance} {hist here items ops} (h : Program c tol hist here items ops)
    (ht : Tight items ops) : ∃ p', Run c none hist here items ops p' ∧ (tol.dangling = false → p' = none) := by
  induction h with
  | nil => exact ⟨none, .nil, fun _ => rfl⟩
  | @cons hist here op i1 o1 i2 o2 items ops h1 h2 h3 ih =>
    have ht' : Tight items ops := by
      have : Tight ((.opcode op :: (i1 ++ i2)) ++ items) ((o1 ++ o2) ++ ops) := by simpa using ht
      exact Tight.tail' h3 this
    obtain ⟨p', hr, hp'⟩ := ih ht'
    refine ⟨p', ?_, hp'⟩
    rcases h1.cases' with ⟨n1, rfl, rfl⟩ | ⟨n1, sb1, sz1, it1, op1, rfl, rfl, hs1, hop1⟩
    · rcases h2.cases' with ⟨n2, rfl, rfl⟩ | ⟨n2, sb2, sz2, it2, op2, rfl, rfl, hs2, hop2⟩
      · have hne : items ≠ [] := by
          rintro rfl
          rcases ht with h | ⟨⟨fr, bs, h⟩, _⟩
          · simp at h
          · rcases h with h | h
            · have := congrArg List.getLast? h
              rw [List.getLast?_concat] at this; simp at this
            · have := congrArg List.getLast? h
              rw [List.getLast?_concat] at this; simp at this
        have hp : pend c.table op = none := by simp [pend, n2]
        have := Run.skip (op := op) n1 (by rw [hp]; simpa [addrs, sizes] using hr) hne
        simpa using this
      · have hp : pend c.table op = some op := by simp [pend, n2]
        have h2' : Run c (some op) hist here (([] : Bytes).map .opcode ++ ([.size sb2, it2] ++ items)) (op2 :: ops) p' :=
          .step .pending hs2 (by simpa [addrs, sizes] using hop2) (by simpa [addrs, sizes] using hr)
        have := Run.skip (op := op) n1 (by rw [hp]; exact h2') (by simp)
        simpa using this
    · rcases h2.cases' with ⟨n2, rfl, rfl⟩ | ⟨n2, sb2, sz2, it2, op2, rfl, rfl, hs2, hop2⟩
      · have hp : pend c.table op = none := by simp [pend, n2]
        have := Run.step (c := c) (p := none) (.first n1) hs1 hop1 (by rw [hp]; simpa [addrs, sizes] using hr)
        simpa using this
      · have hp : pend c.table op = some op := by simp [pend, n2]
        have h2' : Run c (some op) (hist ++ op1.addrs) (here + op1.size)
            (([] : Bytes).map .opcode ++ ([.size sb2, it2] ++ items)) (op2 :: ops) p' :=
          .step .pending hs2 (by simpa [addrs, sizes] using hop2) (by simpa [addrs, sizes] using hr)
        have := Run.step (c := c) (p := none) (.first n1) hs1 hop1 (by rw [hp]; exact h2')
        simpa using this
  | @dangling hist here op i1 o1 hd h0 h1 =>
    refine ⟨pend c.table op, ?_, fun hf => by rw [hd] at hf; simp at hf⟩
    rcases h1.cases' with ⟨n1, rfl, rfl⟩ | ⟨n1, sb1, sz1, it1, op1, rfl, rfl, hs1, hop1⟩
    · rcases ht with h | ⟨⟨fr, bs, h⟩, _⟩
      · simp at h
      · rcases h with h | h
        · have := congrArg List.getLast? h
          rw [List.getLast?_concat] at this; simp at this
        · have := congrArg List.getLast? h
          rw [List.getLast?_concat] at this; simp at this
    · have := Run.step (c := c) (p := none) (.first n1) hs1 hop1 Run.nil
      simpa using this

end Vcd
