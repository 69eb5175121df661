import Verif.Model.Lifetime
import Verif.Proof.WordSize

/-!
# The decoder with its pointers does what the decoder without them does: memory, sections, instructions
-/

namespace Vcd.Lifetime
open Spec

theorem ok_bind {ε α β : Type} (a : α) (f : α → Except ε β) : (Except.ok a >>= f) = f a := rfl

theorem error_bind {ε α β : Type} (e : ε) (f : α → Except ε β) : (Except.error e >>= f) = .error e := rfl

/-! ### Memory -/

/-- The pieces of memory that the input can be in. -/
def Buf.IsSrc : Buf → Prop
  | .input _ => True
  | .unparsed _ => True
  | _ => False

/-- The same input. -/
structure SameInput (m m' : Mem) : Prop where
  call : m'.call = m.call
  input : m'.input = m.input
  unparsed : m'.unparsed = m.unparsed

theorem SameInput.rfl' (m : Mem) : SameInput m m := ⟨rfl, rfl, rfl⟩

theorem SameInput.symm {m m' : Mem} (h : SameInput m m') : SameInput m' m :=
  ⟨h.call.symm, h.input.symm, h.unparsed.symm⟩

theorem SameInput.trans {a b c : Mem} (h : SameInput a b) (k : SameInput b c) : SameInput a c :=
  ⟨k.call.trans h.call, k.input.trans h.input, k.unparsed.trans h.unparsed⟩

theorem SameInput.block {m m' : Mem} (h : SameInput m m') {b : Buf} (hb : b.IsSrc) : m'.block b = m.block b := by
  cases b with
  | dict => exact hb.elim
  | decoded v => exact hb.elim
  | input c => simp only [Mem.block, h.call, h.input]
  | unparsed v => simp only [Mem.block, h.unparsed]

/-- In memory there are the bytes `s` at `p`. -/
def Holds (m : Mem) (p : Ptr) (s : Bytes) : Prop :=
  ∃ pre post, m.block p.buf = some (pre ++ s ++ post) ∧ pre.length = p.off

theorem Holds.read {m : Mem} {p : Ptr} {s : Bytes} (h : Holds m p s) {a n : Nat} (hn : a + n ≤ s.length) :
    m.read (p.add a) n = .ok ((s.drop a).take n) := by
  obtain ⟨pre, post, h1, h2⟩ := h
  have e : (pre ++ s ++ post).drop (p.off + a) = s.drop a ++ post := by
    rw [List.append_assoc, ← h2, List.drop_append, List.drop_append]
    have e1 : pre.length + a - pre.length = a := by omega
    rw [e1, List.drop_eq_nil_of_le (by omega : pre.length ≤ pre.length + a)]
    have e2 : a - s.length = 0 := by omega
    rw [e2]; rfl
  have hl : ¬ (p.off + a + n > (pre ++ s ++ post).length) := by
    simp only [List.length_append]; omega
  unfold Mem.read Ptr.add
  simp only [h1]
  rw [if_neg hl, e, List.take_append]
  have e3 : n - (s.drop a).length = 0 := by rw [List.length_drop]; omega
  rw [e3, List.take_zero, List.append_nil]

theorem add_zero (p : Ptr) : p.add 0 = p := rfl

theorem Holds.read0 {m : Mem} {p : Ptr} {s : Bytes} (h : Holds m p s) {n : Nat} (hn : n ≤ s.length) :
    m.read p n = .ok (s.take n) := by
  have := h.read (a := 0) (n := n) (by omega)
  rwa [add_zero, List.drop_zero] at this

theorem Holds.skip {m : Mem} {p : Ptr} {a s : Bytes} (h : Holds m p (a ++ s)) : Holds m (p.add a.length) s := by
  obtain ⟨pre, post, h1, h2⟩ := h
  exact ⟨pre ++ a, post, by simpa [Ptr.add] using h1, by simp [Ptr.add, h2]⟩

theorem Holds.front {m : Mem} {p : Ptr} {a s : Bytes} (h : Holds m p (a ++ s)) : Holds m p a := by
  obtain ⟨pre, post, h1, h2⟩ := h
  exact ⟨pre, s ++ post, by simpa using h1, h2⟩

/-- A `ParseableChunk` whose unparsed data are `s`. -/
structure At (m : Mem) (c : Chunk) (s : Bytes) : Prop where
  src : c.pos.buf.IsSrc
  startBuf : c.start.buf = c.pos.buf
  stopBuf : c.stop.buf = c.pos.buf
  low : c.start.off ≤ c.pos.off
  stop : c.stop.off = c.pos.off + s.length
  holds : Holds m c.pos s

theorem At.same {m m' : Mem} {c : Chunk} {s : Bytes} (h : At m c s) (hm : SameInput m m') : At m' c s := by
  refine ⟨h.src, h.startBuf, h.stopBuf, h.low, h.stop, ?_⟩
  unfold Holds
  rw [hm.block h.src]
  exact h.holds

theorem At.unparsedSize {m : Mem} {c : Chunk} {s : Bytes} (h : At m c s) : c.unparsedSize = .ok s.length := by
  unfold Chunk.unparsedSize Ptr.diff
  rw [if_pos h.stopBuf, h.stop, szSub_eq (by omega)]
  congr 1; omega

theorem At.parsedSize {m : Mem} {c : Chunk} {s : Bytes} (h : At m c s) : c.parsedSize = .ok (c.pos.off - c.start.off) := by
  unfold Chunk.parsedSize Ptr.diff
  rw [if_pos h.startBuf.symm, szSub_eq h.low]

theorem At.view {m : Mem} {c : Chunk} {s : Bytes} (h : At m c s) : m.view c.pos c.stop = .ok s := by
  have := h.unparsedSize
  unfold Chunk.unparsedSize at this
  unfold Mem.view
  rw [this, ok_bind, h.holds.read0 (Nat.le_refl _), List.take_length]

theorem At.move {m : Mem} {c : Chunk} {a s : Bytes} (h : At m c (a ++ s)) {n : Nat} (hn : n = a.length) :
    At m { c with pos := c.pos.add n } s := by
  subst hn
  refine ⟨h.src, h.startBuf, h.stopBuf, ?_, ?_, h.holds.skip⟩
  · have := h.low; simp only [Ptr.add]; omega
  · have := h.stop; simp only [Ptr.add]; rw [this, List.length_append]; omega

theorem At.advance {m : Mem} {c : Chunk} {a s : Bytes} (h : At m c (a ++ s)) {n : Nat} (hn : n = a.length) :
    c.advance n = .ok { c with pos := c.pos.add n } := by
  subst hn
  unfold Chunk.advance
  rw [h.unparsedSize, ok_bind, if_neg (by simp)]

/-- A `ParseableChunk` that has just been set up. -/
theorem At.over {m : Mem} {c : Chunk} {a s : Bytes} (h : At m c (a ++ s)) {n : Nat} (hn : n = a.length) :
    At m (.over c.pos n) a := by
  subst hn
  exact ⟨h.src, rfl, rfl, Nat.le_refl _, rfl, h.holds.front⟩

/-! ### Objects -/

/-- What does not change in a `ParseableChunk` while a window is decoded. -/
def Chunk.ends (c : Chunk) : Ptr × Ptr := (c.start, c.stop)

/-- What does not change in the objects while a window is decoded. -/
def Mem.shape (m : Mem) : List (Option (Ptr × Ptr)) := m.objects.map (Option.map Chunk.ends)

/-- The object `i` exists. -/
def Mem.Live (m : Mem) (i : Nat) : Prop := ∃ c, m.objects[i]? = some (some c)

theorem live_iff {m : Mem} {i : Nat} : m.Live i ↔ ∃ e, m.shape[i]? = some (some e) := by
  unfold Mem.Live Mem.shape
  rw [List.getElem?_map]
  constructor
  · rintro ⟨c, h⟩
    exact ⟨c.ends, by rw [h]; rfl⟩
  · rintro ⟨e, h⟩
    cases h1 : m.objects[i]? with
    | none => simp [h1] at h
    | some o =>
      cases o with
      | none => simp [h1] at h
      | some c => exact ⟨c, rfl⟩

theorem live_congr {m m' : Mem} (h : m'.shape = m.shape) (i : Nat) : m'.Live i ↔ m.Live i := by
  rw [live_iff, live_iff, h]

theorem get_live {m : Mem} {i : Nat} {c : Chunk} (h : m.objects[i]? = some (some c)) : m.get (some i) = .ok c := by
  unfold Mem.get
  simp only [h]

theorem put_get {m : Mem} {i : Nat} {c c' : Chunk} (h : m.objects[i]? = some (some c)) :
    (m.put i c').objects[i]? = some (some c') := by
  have : i < m.objects.length := (List.getElem?_eq_some_iff.1 h).1
  simp [Mem.put, this]

theorem put_get_ne {m : Mem} {i j : Nat} {c' : Chunk} (h : i ≠ j) : (m.put i c').objects[j]? = m.objects[j]? := by
  simp [Mem.put, h]

theorem put_put (m : Mem) (i : Nat) (a b : Chunk) : (m.put i a).put i b = m.put i b := by
  simp [Mem.put]

theorem put_self {m : Mem} {i : Nat} {c : Chunk} (h : m.objects[i]? = some (some c)) : m.put i c = m := by
  unfold Mem.put
  have : m.objects.set i (some c) = m.objects := by
    apply List.ext_getElem?
    intro k
    rw [List.getElem?_set]
    split
    · rename_i e; subst e
      rw [h]; simp [(List.getElem?_eq_some_iff.1 h).1]
    · rfl
  rw [this]

theorem put_shape {m : Mem} {i : Nat} {c c' : Chunk} (h : m.objects[i]? = some (some c)) (he : c'.ends = c.ends) :
    (m.put i c').shape = m.shape := by
  unfold Mem.shape Mem.put
  apply List.ext_getElem?
  intro k
  simp only [List.getElem?_map, List.getElem?_set]
  split
  · rename_i e; subst e
    rw [h]; simp [(List.getElem?_eq_some_iff.1 h).1, he]
  · rfl

theorem put_same (m : Mem) (i : Nat) (c : Chunk) : SameInput m (m.put i c) := ⟨rfl, rfl, rfl⟩

theorem put_live {m : Mem} {i : Nat} (h : m.Live i) (c : Chunk) (k : Nat) : (m.put i c).Live k ↔ m.Live k := by
  obtain ⟨c0, h0⟩ := h
  by_cases hk : i = k
  · subst hk
    exact ⟨fun _ => ⟨c0, h0⟩, fun _ => ⟨c, put_get h0⟩⟩
  · unfold Mem.Live
    rw [put_get_ne hk]

theorem new_get (m : Mem) (c : Chunk) : (m.new c).objects[m.objects.length]? = some (some c) := by
  simp [Mem.new]

theorem new_get_lt {m : Mem} {c : Chunk} {i : Nat} (h : i < m.objects.length) : (m.new c).objects[i]? = m.objects[i]? := by
  simp [Mem.new, List.getElem?_append_left h]

theorem new_live (m : Mem) (c : Chunk) (k : Nat) : (m.new c).Live k ↔ m.Live k ∨ k = m.objects.length := by
  unfold Mem.Live Mem.new
  simp only
  rcases Nat.lt_trichotomy k m.objects.length with h | h | h
  · rw [List.getElem?_append_left h]
    constructor
    · exact Or.inl
    · rintro (h1 | h1)
      · exact h1
      · omega
  · subst h
    simp
  · constructor
    · rintro ⟨c', h1⟩
      rw [List.getElem?_eq_none (by simp; omega)] at h1
      simp at h1
    · rintro (⟨c', h1⟩ | h1)
      · rw [List.getElem?_eq_none (by omega)] at h1
        simp at h1
      · omega

theorem live_lt {m : Mem} {i : Nat} (h : m.Live i) : i < m.objects.length := by
  obtain ⟨c, h⟩ := h
  exact (List.getElem?_eq_some_iff.1 h).1

/-! ### The sections of a window -/

/-- No section has an object. -/
structure Empty (w : Window) (m : Mem) : Prop where
  inst : w.inst = ⟨none, true⟩
  data : w.data.chunk = none
  addr : w.addr.chunk = none
  live : ∀ k, ¬ m.Live k

/-- All sections share an object. -/
structure Shared (w : Window) (m : Mem) (i : Nat) : Prop where
  inst : w.inst = ⟨some i, true⟩
  data : w.data = ⟨some i, false⟩
  addr : w.addr = ⟨some i, false⟩
  live : ∀ k, m.Live k ↔ k = i

/-- Each section has an object. -/
structure Separate (w : Window) (m : Mem) (i j k : Nat) : Prop where
  inst : w.inst = ⟨some i, true⟩
  data : w.data = ⟨some j, true⟩
  addr : w.addr = ⟨some k, true⟩
  ij : i ≠ j
  ik : i ≠ k
  jk : j ≠ k
  live : ∀ l, m.Live l ↔ l = i ∨ l = j ∨ l = k

/-- One of these. -/
def Tidy (w : Window) (m : Mem) : Prop :=
  Empty w m ∨ (∃ i, Shared w m i) ∨ ∃ i j k, Separate w m i j k

theorem Tidy.congr {w w' : Window} {m m' : Mem} (h : Tidy w m) (h1 : w'.inst = w.inst) (h2 : w'.data = w.data)
    (h3 : w'.addr = w.addr) (h4 : m'.shape = m.shape) : Tidy w' m' := by
  rcases h with h | ⟨i, h⟩ | ⟨i, j, k, h⟩
  · exact Or.inl ⟨h1.trans h.inst, by rw [h2]; exact h.data, by rw [h3]; exact h.addr, fun k hk => h.live k ((live_congr h4 k).1 hk)⟩
  · exact Or.inr (Or.inl ⟨i, h1.trans h.inst, h2.trans h.data, h3.trans h.addr, fun k => (live_congr h4 k).trans (h.live k)⟩)
  · exact Or.inr (Or.inr ⟨i, j, k, h1.trans h.inst, h2.trans h.data, h3.trans h.addr, h.ij, h.ik, h.jk,
      fun l => (live_congr h4 l).trans (h.live l)⟩)

theorem delete_live {m : Mem} {i : Nat} (h : m.Live i) :
    ∃ m', m.delete (some i) = .ok m' ∧ m' = { m with objects := m.objects.set i none } ∧ ∀ k, m'.Live k ↔ m.Live k ∧ k ≠ i := by
  obtain ⟨c, h⟩ := h
  refine ⟨_, by unfold Mem.delete; simp only [h], rfl, fun k => ?_⟩
  unfold Mem.Live
  simp only [List.getElem?_set]
  by_cases hk : i = k
  · subst hk
    simp [(List.getElem?_eq_some_iff.1 h).1]
  · simp [hk, Ne.symm hk]

/-- What `VCDiffDeltaFileWindow::Reset` does. -/
theorem Tidy.reset {w : Window} {m : Mem} (h : Tidy w m) :
    ∃ objects data addr, data.chunk = none ∧ addr.chunk = none ∧
      w.reset m = .ok ({ m with objects }, { inst := ⟨none, true⟩, data, addr, startPos := m.decoded.text.length, reader := w.reader }) ∧
      Empty { inst := ⟨none, true⟩, data, addr, startPos := m.decoded.text.length, reader := w.reader } { m with objects } := by
  rcases h with h | ⟨i, h⟩ | ⟨i, j, k, h⟩
  · refine ⟨m.objects, w.data, w.addr, h.data, h.addr, ?_, rfl, h.data, h.addr, h.live⟩
    have e1 : ∀ s : Section, s.chunk = none → s.free m = .ok (m, s) := by
      rintro ⟨c, o⟩ hs
      subst hs
      cases o <;> rfl
    unfold Window.reset
    simp only [e1 w.inst (by rw [h.inst]), e1 _ h.data, e1 _ h.addr, ok_bind]
    rw [h.inst]
  · obtain ⟨m', h1, h2, h3⟩ := delete_live ((h.live i).2 rfl)
    refine ⟨m.objects.set i none, ⟨none, false⟩, ⟨none, false⟩, rfl, rfl, ?_, rfl, rfl, rfl, fun k hk => ?_⟩
    · unfold Window.reset Section.free
      rw [h.inst, h.data, h.addr]
      simp only [if_true, h1, ok_bind, Bool.false_eq_true, if_false, h2]
    · rw [h2] at h3
      exact ((h3 k).1 hk).2 ((h.live k).1 ((h3 k).1 hk).1)
  · obtain ⟨m1, a1, b1, c1⟩ := delete_live ((h.live i).2 (Or.inl rfl))
    obtain ⟨m2, a2, b2, c2⟩ := delete_live (m := m1) (i := j) ((c1 j).2 ⟨(h.live j).2 (Or.inr (Or.inl rfl)), h.ij.symm⟩)
    obtain ⟨m3, a3, b3, c3⟩ := delete_live (m := m2) (i := k)
      ((c2 k).2 ⟨(c1 k).2 ⟨(h.live k).2 (Or.inr (Or.inr rfl)), h.ik.symm⟩, h.jk.symm⟩)
    have e : m3 = { m with objects := ((m.objects.set i none).set j none).set k none } := by rw [b3, b2, b1]
    refine ⟨((m.objects.set i none).set j none).set k none, ⟨none, true⟩, ⟨none, true⟩, rfl, rfl, ?_, rfl, rfl, rfl, fun l hl => ?_⟩
    · unfold Window.reset Section.free
      rw [h.inst, h.data, h.addr]
      simp only [if_true, a1, a2, a3, ok_bind, e]
    · rw [← e] at hl
      obtain ⟨d1, d2⟩ := (c3 l).1 hl
      obtain ⟨d3, d4⟩ := (c2 l).1 d1
      obtain ⟨d5, d6⟩ := (c1 l).1 d3
      rcases (h.live l).1 d5 with x | x | x
      · exact d6 x
      · exact d4 x
      · exact d2 x

/-! ### Reading instructions -/

/-- What `GetNextInstruction` returns, without the position and the pending instruction. -/
def nextOf : NextInstruction → Reader.Next
  | .inst type size mode _ _ => .inst type size mode
  | .endOfData _ _ => .endOfData
  | .error => .error

/-- `GetNextInstruction` reads what is there. -/
theorem next_eq {m : Mem} {r : Reader} {i : Nat} {c : Chunk} {s : Bytes} (hp : r.position = some (i, c.stop))
    (ho : m.objects[i]? = some (some c)) (ha : At m c s) :
    ∃ c' pending, r.next m = .ok (nextOf (getNextInstruction r.table r.pending s), m.put i c',
        { r with lastStart := some c.pos, lastPending := r.pending, pending }) ∧ c'.ends = c.ends ∧
      (∀ ty sz md rest p, getNextInstruction r.table r.pending s = .inst ty sz md rest p → At m c' rest ∧ pending = p) ∧
      (∀ rest p, getNextInstruction r.table r.pending s = .endOfData rest p → At m c' rest ∧ pending = p) := by
  unfold Reader.next
  simp only [hp, get_live ho, ok_bind, ha.view]
  unfold getNextInstruction
  cases hf : fetchHalf r.table s r.pending with
  | none =>
    refine ⟨_, none, rfl, rfl, by simp, ?_⟩
    intro rest p h
    simp only [NextInstruction.endOfData.injEq] at h
    obtain ⟨rfl, rfl⟩ := h
    exact ⟨At.move (a := s) (by simpa using ha) rfl, rfl⟩
  | some x =>
    obtain ⟨h, p', s'⟩ := x
    obtain ⟨⟨pre, h1⟩, -⟩ := fetchHalf_measure hf
    subst h1
    have hm : At m { c with pos := c.pos.add ((pre ++ s').length - s'.length) } s' := ha.move (by simp)
    simp only
    by_cases h0 : h.size = 0
    · simp only [h0, if_true]
      cases hv : parseVarint32 s' with
      | error => exact ⟨_, p', rfl, rfl, by simp, by simp⟩
      | endOfData =>
        refine ⟨c, r.pending, ?_, rfl, by simp, ?_⟩
        · unfold Reader.unget
          simp only [get_live (put_get ho), ok_bind]
          unfold Ptr.diff
          rw [if_pos (by rfl), ok_bind, ok_bind, put_put]
          rfl
        · intro rest p hx
          simp only [NextInstruction.endOfData.injEq] at hx
          obtain ⟨rfl, rfl⟩ := hx
          exact ⟨ha, rfl⟩
      | ok v rest =>
        obtain ⟨_, pre', _, h2⟩ := parseVarint_ok_suffix (m := maxVal32) (by decide) hv
        refine ⟨_, p', rfl, rfl, ?_, by simp⟩
        intro ty sz md rest' p hx
        simp only [NextInstruction.inst.injEq] at hx
        obtain ⟨rfl, rfl, rfl, rfl, rfl⟩ := hx
        refine ⟨At.move (a := pre') (c := { c with pos := c.pos.add ((pre ++ s').length - s'.length) }) ?_ ?_, rfl⟩
        · rw [← h2]; exact hm
        · rw [h2]; simp
    · simp only [h0, if_false]
      refine ⟨_, p', rfl, rfl, ?_, by simp⟩
      intro ty sz md rest' p hx
      simp only [NextInstruction.inst.injEq] at hx
      obtain ⟨rfl, rfl, rfl, rfl, rfl⟩ := hx
      exact ⟨hm, rfl⟩

end Vcd.Lifetime
