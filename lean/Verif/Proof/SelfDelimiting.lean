import Verif.Proof.RfcUnique
import Verif.Proof.Exec

/-!
# Windows are self-delimiting

Two windows at the same place of a file are the same bytes and have the same instructions, whatever the dictionary
and the earlier target are. Nothing here is about the decoder.
-/

namespace Vcd
open Spec

/-- The streams that items are written to: one, or three. -/
def streams (il : Bool) (items : List Item) : Bytes × Bytes × Bytes :=
  if il then (items.flatMap Item.bytes, [], [])
  else (items.flatMap Item.inst, items.flatMap Item.dataBytes, items.flatMap Item.addr)

/-- The streams begin with these items, and `r` is the rest of each. -/
def Begins (il : Bool) (items : List Item) (r S : Bytes × Bytes × Bytes) : Prop :=
  (streams il items).1 ++ r.1 = S.1 ∧ (streams il items).2.1 ++ r.2.1 = S.2.1 ∧ (streams il items).2.2 ++ r.2.2 = S.2.2

theorem Begins.append {il : Bool} {a b : List Item} {r S : Bytes × Bytes × Bytes} (h : Begins il (a ++ b) r S) :
    ∃ M, Begins il a M S ∧ Begins il b r M := by
  refine ⟨((streams il b).1 ++ r.1, (streams il b).2.1 ++ r.2.1, (streams il b).2.2 ++ r.2.2), ?_, rfl, rfl, rfl⟩
  obtain ⟨h1, h2, h3⟩ := h
  unfold Begins
  rw [← h1, ← h2, ← h3]
  cases il <;> exact ⟨by simp [streams], by simp [streams], by simp [streams]⟩

theorem Begins.nil {il : Bool} {r S : Bytes × Bytes × Bytes} (h : Begins il [] r S) : r = S := by
  obtain ⟨h1, h2, h3⟩ := h
  cases il <;> exact Prod.ext h1 (Prod.ext h2 h3)

theorem Begins.opcode {il : Bool} {a b : UInt8} {r1 r2 S : Bytes × Bytes × Bytes} (h1 : Begins il [.opcode a] r1 S)
    (h2 : Begins il [.opcode b] r2 S) : a = b ∧ r1 = r2 := by
  obtain ⟨k1, k2, k3⟩ := h1
  obtain ⟨j1, j2, j3⟩ := h2
  rw [← j1] at k1
  rw [← j2] at k2
  rw [← j3] at k3
  cases il <;> simp [streams, Item.bytes, Item.inst, Item.dataBytes, Item.addr] at k1 k2 k3 <;>
    exact ⟨k1.1, Prod.ext k1.2 (Prod.ext k2 k3)⟩

theorem Begins.size {il : Bool} {h : Half} {a b : Bytes} {m n : Nat} {r1 r2 S : Bytes × Bytes × Bytes} (h1 : Begins il [.size a] r1 S)
    (h2 : Begins il [.size b] r2 S) (ca : SizeCode h a m) (cb : SizeCode h b n) : a = b ∧ m = n ∧ r1 = r2 := by
  obtain ⟨k1, k2, k3⟩ := h1
  obtain ⟨j1, j2, j3⟩ := h2
  rw [← j1] at k1
  rw [← j2] at k2
  rw [← j3] at k3
  have key : a ++ r1.1 = b ++ r2.1 → a = b ∧ m = n ∧ r1.1 = r2.1 := by
    intro e
    rcases ca with ⟨z, ca⟩ | ⟨z, ca1, ca2⟩ <;> rcases cb with ⟨y, cb⟩ | ⟨y, cb1, cb2⟩
    · obtain ⟨rfl, e'⟩ := ca.1.unique cb.1 e
      exact ⟨rfl, ca.2.1.symm.trans cb.2.1, e'⟩
    · exact absurd z y
    · exact absurd y z
    · subst ca1 cb1
      exact ⟨rfl, ca2.trans cb2.symm, by simpa using e⟩
  cases il <;> simp [streams, Item.bytes, Item.inst, Item.dataBytes, Item.addr] at k1 k2 k3 <;>
    exact ⟨(key k1).1, (key k1).2.1, Prod.ext (key k1).2.2 (Prod.ext k2 k3)⟩

theorem Begins.data {il : Bool} {a b : Bytes} {r1 r2 S : Bytes × Bytes × Bytes} (h1 : Begins il [.data a] r1 S)
    (h2 : Begins il [.data b] r2 S) (hl : a.length = b.length) : a = b ∧ r1 = r2 := by
  obtain ⟨k1, k2, k3⟩ := h1
  obtain ⟨j1, j2, j3⟩ := h2
  rw [← j1] at k1
  rw [← j2] at k2
  rw [← j3] at k3
  cases il <;> simp [streams, Item.bytes, Item.inst, Item.dataBytes, Item.addr] at k1 k2 k3
  · obtain ⟨e1, e2⟩ := List.append_inj k2 hl
    exact ⟨e1, Prod.ext k1 (Prod.ext e2 k3)⟩
  · obtain ⟨e1, e2⟩ := List.append_inj k1 hl
    exact ⟨e1, Prod.ext e2 (Prod.ext k2 k3)⟩

theorem AddrCode.unique {n s : Nat} {hist : List Nat} {here mode : Nat} {b1 b2 r1 r2 : Bytes} {a1 a2 : Nat}
    (h1 : AddrCode n s hist here mode b1 a1) (h2 : AddrCode n s hist here mode b2 a2) (e : b1 ++ r1 = b2 ++ r2) :
    b1 = b2 ∧ a1 = a2 ∧ r1 = r2 := by
  generalize hm : mode = mode' at h2
  cases h1 with
  | self v1 e1 =>
    cases h2 with
    | self v2 e2 =>
      obtain ⟨rfl, e'⟩ := v1.unique v2 e
      exact ⟨rfl, e1.trans e2.symm, e'⟩
    | here _ _ => omega
    | near _ _ _ => omega
    | same _ _ => omega
  | here v1 e1 =>
    cases h2 with
    | self _ _ => omega
    | here v2 e2 =>
      obtain ⟨rfl, e'⟩ := v1.unique v2 e
      exact ⟨rfl, by omega, e'⟩
    | near _ _ _ => omega
    | same _ _ => omega
  | @near i _ _ i1 v1 e1 =>
    cases h2 with
    | self _ _ => omega
    | here _ _ => omega
    | @near j _ _ i2 v2 e2 =>
      obtain ⟨rfl, e'⟩ := v1.unique v2 e
      obtain rfl : i = j := by omega
      exact ⟨rfl, e1.trans e2.symm, e'⟩
    | same _ _ => omega
  | @same i1 b a i2 e1 =>
    cases h2 with
    | self _ _ => omega
    | here _ _ => omega
    | near _ _ _ => omega
    | @same j1 b' a' j2 e2 =>
      obtain rfl : i1 = j1 := by omega
      simp only [List.cons_append, List.nil_append, List.cons.injEq] at e
      obtain ⟨rfl, e⟩ := e
      exact ⟨rfl, e1.trans e2.symm, e⟩

theorem Begins.address {il : Bool} {n s : Nat} {hist : List Nat} {here mode : Nat} {a b : Bytes} {x y : Nat}
    {r1 r2 S : Bytes × Bytes × Bytes} (h1 : Begins il [.address a] r1 S) (h2 : Begins il [.address b] r2 S)
    (ca : AddrCode n s hist here mode a x) (cb : AddrCode n s hist here mode b y) : a = b ∧ x = y ∧ r1 = r2 := by
  obtain ⟨k1, k2, k3⟩ := h1
  obtain ⟨j1, j2, j3⟩ := h2
  rw [← j1] at k1
  rw [← j2] at k2
  rw [← j3] at k3
  cases il <;> simp [streams, Item.bytes, Item.inst, Item.dataBytes, Item.addr] at k1 k2 k3
  · obtain ⟨e1, e2, e3⟩ := AddrCode.unique ca cb k3
    exact ⟨e1, e2, Prod.ext k1 (Prod.ext k2 e3)⟩
  · obtain ⟨e1, e2, e3⟩ := AddrCode.unique ca cb k1
    exact ⟨e1, e2, Prod.ext e3 (Prod.ext k2 k3)⟩

theorem HalfCode.unique {c : Coding} {hist : List Nat} {here : Nat} {h : Half} {i1 i2 : List Item} {o1 o2 : List Op} {il : Bool}
    {r1 r2 S : Bytes × Bytes × Bytes} (h1 : HalfCode c hist here h i1 o1) (h2 : HalfCode c hist here h i2 o2)
    (b1 : Begins il i1 r1 S) (b2 : Begins il i2 r2 S) : i1 = i2 ∧ o1 = o2 ∧ r1 = r2 := by
  cases h1 with
  | noop e1 =>
    cases h2 with
    | noop e2 => exact ⟨rfl, rfl, b1.nil.trans b2.nil.symm⟩
    | add e2 => omega
    | run e2 => omega
    | copy e2 => omega
  | @add sb bs e1 s1 =>
    cases h2 with
    | noop e2 => omega
    | @add sb' bs' e2 s2 =>
      obtain ⟨M1, p1, q1⟩ := Begins.append (a := [.size sb]) (b := [.data bs]) b1
      obtain ⟨M2, p2, q2⟩ := Begins.append (a := [.size sb']) (b := [.data bs']) b2
      obtain ⟨rfl, hl, rfl⟩ := p1.size p2 s1 s2
      obtain ⟨rfl, rfl⟩ := q1.data q2 hl
      exact ⟨rfl, rfl, rfl⟩
    | run e2 => omega
    | copy e2 => omega
  | @run sb n b e1 s1 =>
    cases h2 with
    | noop e2 => omega
    | add e2 => omega
    | @run sb' n' b' e2 s2 =>
      obtain ⟨M1, p1, q1⟩ := Begins.append (a := [.size sb]) (b := [.data [b]]) b1
      obtain ⟨M2, p2, q2⟩ := Begins.append (a := [.size sb']) (b := [.data [b']]) b2
      obtain ⟨rfl, rfl, rfl⟩ := p1.size p2 s1 s2
      obtain ⟨e, rfl⟩ := q1.data q2 rfl
      injection e with e
      subst e
      exact ⟨rfl, rfl, rfl⟩
    | copy e2 => omega
  | @copy sb n bs a e1 s1 a1 _ _ =>
    cases h2 with
    | noop e2 => omega
    | add e2 => omega
    | run e2 => omega
    | @copy sb' n' bs' a' e2 s2 a2 _ _ =>
      obtain ⟨M1, p1, q1⟩ := Begins.append (a := [.size sb]) (b := [.address bs]) b1
      obtain ⟨M2, p2, q2⟩ := Begins.append (a := [.size sb']) (b := [.address bs']) b2
      obtain ⟨rfl, rfl, rfl⟩ := p1.size p2 s1 s2
      obtain ⟨rfl, rfl, rfl⟩ := q1.address q2 a1 a2
      exact ⟨rfl, rfl, rfl⟩

/-- The last item is an operand. -/
def EndsWithOperand (items : List Item) : Prop := ∃ front bs, items = front ++ [.data bs] ∨ items = front ++ [.address bs]

theorem EndsWithOperand.tail {a b : List Item} (h : EndsWithOperand (a ++ b)) (hb : b ≠ []) : EndsWithOperand b := by
  obtain ⟨front, bs, h⟩ := h
  obtain ⟨b', x, rfl⟩ : ∃ b' x, b = b' ++ [x] := ⟨b.dropLast, b.getLast hb, (List.dropLast_concat_getLast hb).symm⟩
  rw [← List.append_assoc] at h
  rcases h with h | h
  · obtain ⟨_, h⟩ := List.append_inj' h rfl
    exact ⟨b', bs, Or.inl (by rw [h])⟩
  · obtain ⟨_, h⟩ := List.append_inj' h rfl
    exact ⟨b', bs, Or.inr (by rw [h])⟩

theorem HalfCode.ops_ne {c : Coding} {hist : List Nat} {here : Nat} {h : Half} {items : List Item} {ops : List Op}
    (hc : HalfCode c hist here h items ops) (hi : items ≠ [] ∨ h.inst.toNat ≠ 0) : ops ≠ [] ∧ items ≠ [] := by
  cases hc with
  | noop e => rcases hi with hi | hi
              · exact absurd rfl hi
              · exact absurd e hi
  | add => simp
  | run => simp
  | copy => simp

theorem Program.ops_ne {c : Coding} {tol : Tolerance} {hist : List Nat} {here : Nat} {items : List Item} {ops : List Op}
    (hp : Program c tol hist here items ops) (he : EndsWithOperand items) : ops ≠ [] := by
  induction hp with
  | nil => obtain ⟨front, bs, h⟩ := he; simp at h
  | @cons hist here op i1 o1 i2 o2 items ops h1 h2 _ ih =>
    by_cases hi : items = []
    · subst hi
      by_cases hi2 : i2 = []
      · subst hi2
        by_cases hi1 : i1 = []
        · subst hi1
          obtain ⟨front, bs, h⟩ := he
          cases front <;> simp at h
        · have := (HalfCode.ops_ne h1 (Or.inl hi1)).1
          simp [this]
      · have := (HalfCode.ops_ne h2 (Or.inl hi2)).1
        simp [this]
    · have := ih (EndsWithOperand.tail (a := .opcode op :: (i1 ++ i2)) (by simpa using he) hi)
      simp [this]
  | @dangling hist here op i1 o1 _ _ h1 =>
    by_cases hi1 : i1 = []
    · subst hi1
      obtain ⟨front, bs, h⟩ := he
      cases front <;> simp at h
    · exact (HalfCode.ops_ne h1 (Or.inl hi1)).1

theorem Tight.sizes_pos {items : List Item} {ops : List Op} (h : Tight items ops) (hne : items ≠ []) : 0 < sizes ops := by
  rcases h with h | ⟨_, front, o, rfl, ho⟩
  · exact absurd h hne
  · simp only [sizes, List.map_append, List.map_cons, List.map_nil, List.sum_append, List.sum_cons, List.sum_nil]
    omega

/-- If the last of some instructions produces something, so do those after any but the last. -/
theorem last_pos {a b front : List Op} {o : Op} (h : a ++ b = front ++ [o]) (hb : b ≠ []) (ho : 0 < o.size) :
    (∃ f, b = f ++ [o]) ∧ 0 < sizes b := by
  obtain ⟨b', x, rfl⟩ : ∃ b' x, b = b' ++ [x] := ⟨b.dropLast, b.getLast hb, (List.dropLast_concat_getLast hb).symm⟩
  rw [← List.append_assoc] at h
  obtain ⟨_, h⟩ := List.append_inj' h rfl
  injection h with h
  subst h
  refine ⟨⟨b', rfl⟩, ?_⟩
  simp only [sizes, List.map_append, List.map_cons, List.map_nil, List.sum_append, List.sum_cons, List.sum_nil]
  omega

/-- Two programs that the same streams begin with, and that produce as many bytes, are the same. -/
theorem Program.unique {c : Coding} {tol : Tolerance} {hist : List Nat} {here : Nat} {i1 i2 : List Item} {o1 o2 : List Op} {il : Bool}
    {r1 r2 S : Bytes × Bytes × Bytes} (p1 : Program c tol hist here i1 o1) (p2 : Program c tol hist here i2 o2)
    (t1 : Tight i1 o1) (t2 : Tight i2 o2) (hs : sizes o1 = sizes o2)
    (b1 : Begins il i1 r1 S) (b2 : Begins il i2 r2 S) : i1 = i2 ∧ o1 = o2 ∧ r1 = r2 := by
  induction p1 generalizing i2 o2 S with
  | nil =>
    by_cases hi : i2 = []
    · subst hi
      cases p2
      exact ⟨rfl, rfl, b1.nil.trans b2.nil.symm⟩
    · have := t2.sizes_pos hi
      rw [← hs] at this
      exact absurd this (by simp [sizes])
  | @cons hist here op i1 o1 j1 q1 items ops h1 h2 hp ih =>
    obtain ⟨M1, x1, y1⟩ := Begins.append (a := [.opcode op]) (b := i1 ++ j1 ++ items) b1
    rw [List.append_assoc] at y1
    obtain ⟨N1, y1, y2⟩ := y1.append
    have tight : ∀ {i1 j1 items : List Item} {o1 q1 ops : List Op} {op : UInt8},
        Program c tol (hist ++ addrs o1 ++ addrs q1) (here + sizes o1 + sizes q1) items ops →
        Tight (.opcode op :: (i1 ++ j1 ++ items)) (o1 ++ q1 ++ ops) → Tight items ops := by
      intro i1 j1 items o1 q1 ops op hp t
      by_cases hi : items = []
      · exact Or.inl hi
      · rcases t with t | ⟨t1, front, o, e, ho⟩
        · exact absurd t (by simp)
        · have ht := EndsWithOperand.tail (a := .opcode op :: (i1 ++ j1)) (b := items) (by simpa [EndsWithOperand] using t1) hi
          obtain ⟨⟨f, hf⟩, _⟩ := last_pos e (Program.ops_ne hp ht) ho
          exact Or.inr ⟨ht, f, o, hf, ho⟩
    cases p2 with
    | nil =>
      have := t1.sizes_pos (by simp)
      rw [hs] at this
      exact absurd this (by simp [sizes])
    | @cons _ _ op' i1' o1' j1' q1' items' ops' h1' h2' hp' =>
      obtain ⟨M2, x2, z1⟩ := Begins.append (a := [.opcode op']) (b := i1' ++ j1' ++ items') b2
      rw [List.append_assoc] at z1
      obtain ⟨N2, z1, z2⟩ := z1.append
      obtain ⟨rfl, rfl⟩ := x1.opcode x2
      obtain ⟨rfl, rfl, rfl⟩ := HalfCode.unique h1 h1' y1 z1
      obtain ⟨K1, y2, y3⟩ := y2.append
      obtain ⟨K2, z2, z3⟩ := z2.append
      obtain ⟨rfl, rfl, rfl⟩ := HalfCode.unique h2 h2' y2 z2
      have hs' : sizes ops = sizes ops' := by
        simp only [sizes, List.map_append, List.sum_append] at hs ⊢
        omega
      obtain ⟨rfl, rfl, rfl⟩ := ih hp' (tight hp t1) (tight hp' t2) hs' y3 z3
      exact ⟨rfl, rfl, rfl⟩
    | @dangling _ _ op' i1' o1' hd hn h1' =>
      obtain ⟨M2, x2, z1⟩ := Begins.append (a := [.opcode op']) (b := i1') b2
      obtain ⟨rfl, rfl⟩ := x1.opcode x2
      obtain ⟨rfl, rfl, rfl⟩ := HalfCode.unique h1 h1' y1 z1
      rcases t1 with t1 | ⟨t1, front, o, e, ho⟩
      · exact absurd t1 (by simp)
      · rw [List.append_assoc] at e
        have hq := (HalfCode.ops_ne h2 (Or.inr hn)).1
        have := (last_pos e (by simp [hq]) ho).2
        simp only [sizes, List.map_append, List.sum_append] at hs this
        omega
  | @dangling hist here op i1 o1 hd hn h1 =>
    obtain ⟨M1, x1, y1⟩ := Begins.append (a := [.opcode op]) (b := i1) b1
    cases p2 with
    | nil =>
      have := t1.sizes_pos (by simp)
      rw [hs] at this
      exact absurd this (by simp [sizes])
    | @cons _ _ op' i1' o1' j1' q1' items' ops' h1' h2' hp' =>
      obtain ⟨M2, x2, z1⟩ := Begins.append (a := [.opcode op']) (b := i1' ++ j1' ++ items') b2
      rw [List.append_assoc] at z1
      obtain ⟨N2, z1, z2⟩ := z1.append
      obtain ⟨rfl, rfl⟩ := x1.opcode x2
      obtain ⟨rfl, rfl, rfl⟩ := HalfCode.unique h1 h1' y1 z1
      rcases t2 with t2 | ⟨t2, front, o, e, ho⟩
      · exact absurd t2 (by simp)
      · rw [List.append_assoc] at e
        have hq := (HalfCode.ops_ne h2' (Or.inr hn)).1
        have := (last_pos e (by simp [hq]) ho).2
        simp only [sizes, List.map_append, List.sum_append] at hs this
        omega
    | @dangling _ _ op' i1' o1' hd' hn' h1' =>
      obtain ⟨M2, x2, z1⟩ := Begins.append (a := [.opcode op']) (b := i1') b2
      obtain ⟨rfl, rfl⟩ := x1.opcode x2
      obtain ⟨rfl, rfl, rfl⟩ := HalfCode.unique h1 h1' y1 z1
      exact ⟨rfl, rfl, rfl⟩

/-- The fields for the source segment are self-delimiting, and give its length. -/
theorem Spec.SourceCode.unique {a a' : Bool} {dict dict' prev prev' : Bytes} {ind : UInt8} {g1 g2 u1 u2 r1 r2 : Bytes}
    (h1 : SourceCode a dict prev ind g1 u1) (h2 : SourceCode a' dict' prev' ind g2 u2) (e : g1 ++ r1 = g2 ++ r2) :
    g1 = g2 ∧ r1 = r2 ∧ u1.length = u2.length ∧ (dict = dict' → prev = prev' → u1 = u2) := by
  cases h1 with
  | none e1 =>
    cases h2 with
    | none e2 => exact ⟨rfl, by simpa using e, rfl, fun _ _ => rfl⟩
    | dict e2 => rw [e1] at e2; exact absurd e2 (by decide)
    | target e2 => rw [e1] at e2; exact absurd e2 (by decide)
  | @dict lb pb len pos e1 n1 p1 b1 =>
    cases h2 with
    | none e2 => rw [e1] at e2; exact absurd e2 (by decide)
    | @dict lb' pb' len' pos' e2 n2 p2 b2 =>
      rw [List.append_assoc, List.append_assoc] at e
      obtain ⟨rfl, rfl, e⟩ := n1.unique n2 e
      obtain ⟨rfl, rfl, e⟩ := p1.unique p2 e
      refine ⟨rfl, e, ?_, fun h _ => by rw [h]⟩
      simp only [List.length_take, List.length_drop]
      omega
    | target e2 => rw [e1] at e2; exact absurd e2 (by decide)
  | @target lb pb len pos e1 _ n1 p1 b1 =>
    cases h2 with
    | none e2 => rw [e1] at e2; exact absurd e2 (by decide)
    | dict e2 => rw [e1] at e2; exact absurd e2 (by decide)
    | @target lb' pb' len' pos' e2 _ n2 p2 b2 =>
      rw [List.append_assoc, List.append_assoc] at e
      obtain ⟨rfl, rfl, e⟩ := n1.unique n2 e
      obtain ⟨rfl, rfl, e⟩ := p1.unique p2 e
      refine ⟨rfl, e, ?_, fun _ h => by rw [h]⟩
      simp only [List.length_take, List.length_drop]
      omega

theorem ChecksumCode.unique {present : Bool} {T1 T2 b1 b2 r1 r2 : Bytes} (h1 : ChecksumCode present T1 b1)
    (h2 : ChecksumCode present T2 b2) (e : b1 ++ r1 = b2 ++ r2) : b1 = b2 ∧ r1 = r2 := by
  unfold ChecksumCode at h1 h2
  cases present
  · simp only [Bool.false_eq_true, if_false] at h1 h2
    subst h1 h2
    exact ⟨rfl, by simpa using e⟩
  · simp only [if_true] at h1 h2
    exact h1.1.unique h2.1 e

theorem streams_sections {ext : Bool} {items : List Item} {data inst addr : Bytes} (h : SectionCode ext items data inst addr)
    (r : Bytes) : Begins (decide (ext = true ∧ data = [] ∧ addr = [])) items (r, [], []) (inst ++ r, data, addr) := by
  unfold SectionCode at h
  split at h
  · rename_i hx
    subst h
    rw [decide_eq_true hx]
    simp [Begins, streams, hx.2.1, hx.2.2]
  · rename_i hx
    obtain ⟨rfl, rfl, rfl⟩ := h
    rw [decide_eq_false hx]
    simp [Begins, streams]

/-- Two windows at the same place of a file are the same. -/
theorem Spec.WindowCode.unique {c : Coding} {ext : Bool} {tol : Tolerance} (ht : tol.trailing = false) {s s' : Settings}
    {dict dict' prev prev' w1 w2 T1 T2 r1 r2 : Bytes}
    (h1 : WindowCode c ext tol s dict prev w1 T1) (h2 : WindowCode c ext tol s' dict' prev' w2 T2) (e : w1 ++ r1 = w2 ++ r2) :
    w1 = w2 ∧ r1 = r2 ∧ T1.length = T2.length ∧ (dict = dict' → prev = prev' → T1 = T2) := by
  cases h1 with
  | @mk ind di seg src dl tlen dlen ilen alen cks data inst addr _ items ops surplus source program tight exec
      windowLimit fileLimit sections noSurplus targetLength deltaIndicator dataLength instLength addrLength checksum
      deltaLength copies caches =>
  cases h2 with
  | @mk ind' di' seg' src' dl' tlen' dlen' ilen' alen' cks' data' inst' addr' _ items' ops' surplus' source' program' tight' exec'
      windowLimit' fileLimit' sections' noSurplus' targetLength' deltaIndicator' dataLength' instLength' addrLength' checksum'
      deltaLength' copies' caches' =>
    simp only [List.append_assoc, List.cons_append, List.nil_append, List.cons.injEq] at e
    obtain ⟨rfl, e⟩ := e
    obtain ⟨rfl, e, hsl, hsrc⟩ := source.unique source' e
    obtain ⟨rfl, hdl, e⟩ := deltaLength.unique deltaLength' e
    obtain ⟨rfl, hT, e2⟩ := targetLength.unique targetLength' e
    simp only [List.cons.injEq] at e2
    obtain ⟨rfl, e3⟩ := e2
    obtain ⟨rfl, hd, e4⟩ := dataLength.unique dataLength' e3
    obtain ⟨rfl, hi, e5⟩ := instLength.unique instLength' e4
    obtain ⟨rfl, ha, e6⟩ := addrLength.unique addrLength' e5
    obtain ⟨rfl, e9⟩ := ChecksumCode.unique checksum checksum' e6
    clear e e3 e4 e5 e6
    have t1 : Tight items ops := tight.resolve_left (by rw [ht]; simp)
    have t2 : Tight items' ops' := tight'.resolve_left (by rw [ht]; simp)
    have hsz : sizes ops = sizes ops' := by
      have k1 := execOps_length ops src
      have k2 := execOps_length ops' src'
      rw [exec, List.length_append] at k1
      rw [exec', List.length_append] at k2
      omega
    have fin : ops = ops' → (dict = dict' → prev = prev' → T1 = T2) := by
      rintro rfl hx hy
      have := hsrc hx hy
      subst this
      rw [exec] at exec'
      exact List.append_cancel_left exec'
    have hil : (ext = true ∧ data = [] ∧ addr = []) ↔ (ext = true ∧ data' = [] ∧ addr' = []) := by
      rw [← List.length_eq_zero_iff, ← List.length_eq_zero_iff (l := addr), hd, ha, List.length_eq_zero_iff, List.length_eq_zero_iff]
    have b1 := streams_sections sections
    have b2 := streams_sections sections'
    rw [decide_eq_decide.2 hil] at b1
    rw [← hsl] at program'
    by_cases hx : ext = true ∧ data = [] ∧ addr = []
    · obtain ⟨hx1, rfl, rfl⟩ := hx
      obtain ⟨_, rfl, rfl⟩ := hil.1 ⟨hx1, rfl, rfl⟩
      simp only [List.nil_append] at e9
      have b1 := b1 r1
      have b2 := b2 r2
      rw [e9] at b1
      obtain ⟨rfl, rfl, hr⟩ := Program.unique program program' t1 t2 hsz b1 b2
      simp only [Prod.mk.injEq, and_true] at hr
      subst hr
      have := List.append_cancel_right e9
      subst this
      exact ⟨rfl, rfl, hT, fin rfl⟩
    · have hsur : surplus = 0 := noSurplus.resolve_right (fun h => hx h.2)
      have hsur' : surplus' = 0 := noSurplus'.resolve_right (fun h => hx (hil.2 h.2))
      subst hsur hsur'
      obtain ⟨rfl, e10⟩ := List.append_inj e9 hd
      obtain ⟨rfl, e11⟩ := List.append_inj e10 (by omega)
      obtain ⟨rfl, rfl⟩ := List.append_inj e11 ha
      obtain ⟨rfl, rfl, hr⟩ := Program.unique program program' t1 t2 hsz (b1 []) (b2 [])
      exact ⟨rfl, rfl, hT, fin rfl⟩

/-- A window without a checksum is a window relative to any dictionary that is long enough, and any earlier target of
the same length; a window with a checksum is one if the checksum happens to be that of the other target. -/
theorem Spec.WindowCode.other {c : Coding} {ext : Bool} {tol : Tolerance} {s : Settings} {dict prev w T : Bytes}
    (h : WindowCode c ext tol s dict prev w T) {dict' prev' : Bytes} (hd : dict.length ≤ dict'.length)
    (hp : prev.length = prev'.length) :
    ∃ T', T'.length = T.length ∧ (dict'.take dict.length = dict → prev = prev' → T' = T) ∧
      ((ext = false ∨ ∃ R : Reading w, R.ind &&& 4 = 0) ∨ adlerOf T' = adlerOf T → WindowCode c ext tol s dict' prev' w T') := by
  cases h with
  | @mk ind di seg src dl tlen dlen ilen alen cks data inst addr _ items ops surplus source program tight exec
      windowLimit fileLimit sections noSurplus targetLength deltaIndicator dataLength instLength addrLength checksum
      deltaLength copies caches =>
    obtain ⟨src', hs', hl, he⟩ : ∃ src', SourceCode s.allowTarget dict' prev' ind seg src' ∧ src'.length = src.length ∧
        (dict'.take dict.length = dict → prev = prev' → src' = src) := by
      cases source with
      | none e => exact ⟨[], .none e, rfl, fun _ _ => rfl⟩
      | @dict lb pb len pos e h1 h2 h3 =>
        refine ⟨_, .dict e h1 h2 (by omega), by simp only [List.length_take, List.length_drop]; omega, fun h _ => ?_⟩
        conv => rhs; rw [← h]
        rw [List.drop_take, List.take_take, Nat.min_eq_left (by omega)]
      | @target lb pb len pos e h0 h1 h2 h3 =>
        refine ⟨_, .target e h0 h1 h2 (by omega), by simp only [List.length_take, List.length_drop]; omega, fun _ h => ?_⟩
        rw [h]
    obtain ⟨T', hT'⟩ := execOps_prefix src' ops
    have hlen : T'.length = T.length := by
      have k1 := execOps_length ops src
      have k2 := execOps_length ops src'
      rw [exec, List.length_append] at k1
      rw [← hT', List.length_append] at k2
      omega
    refine ⟨T', hlen, ?_, ?_⟩
    · intro h1 h2
      have := he h1 h2
      subst this
      rw [exec] at hT'
      exact List.append_cancel_left hT'
    · intro hck
      refine .mk hs' (by rw [hl]; exact program) tight hT'.symm (by omega) (by omega) sections noSurplus (by rw [hlen]; exact targetLength)
        deltaIndicator dataLength instLength addrLength ?_ deltaLength copies caches
      unfold ChecksumCode at checksum ⊢
      split
      · rename_i hx
        rw [if_pos hx] at checksum
        refine ⟨checksum.1, checksum.2.trans ?_⟩
        rcases hck with (hck | ⟨R, hR⟩) | hck
        · rw [hck] at hx; simp at hx
        · exfalso
          have := R.bytes
          simp only [List.append_assoc, List.cons_append, List.nil_append, List.cons.injEq] at this
          rw [this.1, hR] at hx
          simp at hx
        · exact hck.symm
      · rename_i hx
        rw [if_neg hx] at checksum
        exact checksum

end Vcd
