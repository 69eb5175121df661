import Verif.Proof.Reference

/-!
# What the other decoder accepts follows the grammar
-/

namespace Vcd
open Spec Spec.Reference

theorem number_some {s rest : Bytes} {acc n : Nat} (h : number acc s = some (n, rest)) :
    ∃ bs, IsVarint bs ∧ s = bs ++ rest ∧ n = acc * 128 ^ bs.length + varintValue bs := by
  induction s generalizing acc with
  | nil => cases h
  | cons b s ih =>
    rw [number] at h
    by_cases hb : b.toNat < 128
    · simp only [if_pos hb, Option.some.injEq, Prod.mk.injEq] at h
      obtain ⟨rfl, rfl⟩ := h
      refine ⟨[b], ⟨[], b, rfl, by simp, by simpa [continues] using hb⟩, rfl, ?_⟩
      simp [varintValue, digitsValue, digit]
    · simp only [if_neg hb] at h
      obtain ⟨bs, ⟨front, last, rfl, h1, h2⟩, rfl, h3⟩ := ih h
      refine ⟨b :: (front ++ [last]), ⟨b :: front, last, rfl, ?_, h2⟩, rfl, ?_⟩
      · intro x hx
        rcases List.mem_cons.1 hx with rfl | hx
        · simpa [continues] using hb
        · exact h1 x hx
      · rw [h3, varintValue_cons]
        simp only [digit, List.length_cons, Nat.pow_succ]
        rw [Nat.add_mul, Nat.mul_assoc, Nat.mul_comm 128]
        omega

theorem number_code {s rest : Bytes} {n : Nat} (h : number 0 s = some (n, rest)) (hn : n ≤ 2147483647) :
    ∃ bs, NumCode bs n ∧ s = bs ++ rest := by
  obtain ⟨bs, h1, h2, h3⟩ := number_some h
  exact ⟨bs, ⟨h1, by omega, hn⟩, h2⟩

theorem address_some {hist : List Nat} {here mode a : Nat} {s rest : Bytes} (hm : mode ≤ 8)
    (h : (Cache.ofHist hist).address here mode s = some (a, rest)) :
    ∃ bs, AddrCode 4 3 hist here mode bs a ∧ s = bs ++ rest := by
  unfold Cache.address at h
  by_cases h0 : mode = 0
  · rw [if_pos h0] at h
    obtain ⟨bs, k1, k2, k3⟩ := number_some h
    subst h0
    exact ⟨bs, .self k1 (by omega), k2⟩
  rw [if_neg h0] at h
  by_cases h1 : mode = 1
  · rw [if_pos h1] at h
    cases hn : number 0 s with
    | none => simp [hn] at h
    | some p =>
      obtain ⟨n, r⟩ := p
      simp only [hn, Option.bind_some] at h
      by_cases hle : n ≤ here
      · simp only [if_pos hle, Option.some.injEq, Prod.mk.injEq] at h
        obtain ⟨bs, k1, k2, k3⟩ := number_some hn
        subst h1
        exact ⟨bs, .here k1 (by omega), by rw [k2, h.2]⟩
      · simp [hle] at h
  rw [if_neg h1] at h
  by_cases h2 : mode < 6
  · rw [if_pos h2] at h
    cases hn : number 0 s with
    | none => simp [hn] at h
    | some p =>
      obtain ⟨n, r⟩ := p
      simp only [hn, Option.map_some, Option.some.injEq, Prod.mk.injEq] at h
      obtain ⟨bs, k1, k2, k3⟩ := number_some hn
      refine ⟨bs, ?_, by rw [k2, h.2]⟩
      have e : mode = 2 + (mode - 2) := by omega
      rw [e]
      refine .near (by omega) k1 ?_
      have hl : mode - 2 < 4 := by omega
      have : (Cache.ofHist hist).near.getD (mode - 2) 0 = nearSlot 4 hist (mode - 2) := by simp [Cache.ofHist, hl]
      rw [← h.1, this]
      omega
  · rw [if_neg h2] at h
    cases s with
    | nil => cases h
    | cons b s =>
      simp only [Option.some.injEq, Prod.mk.injEq] at h
      refine ⟨[b], ?_, by rw [h.2]; rfl⟩
      have e : mode = 2 + 4 + (mode - 6) := by omega
      rw [e]
      refine .same (by omega) ?_
      have hb := b.toNat_lt
      have hl : (mode - 6) * 256 + b.toNat < 768 := by omega
      have : (Cache.ofHist hist).same.getD ((mode - 6) * 256 + b.toNat) 0 = sameSlot 3 hist ((mode - 6) * 256 + b.toNat) := by
        simp [Cache.ofHist, hl]
      rw [← h.1, this]

theorem size_some {h : Half} {s rest : Bytes} {n : Nat} (hs : instructionSize h.template s = some (n, rest)) (hn : n ≤ 2147483647) :
    ∃ sb, SizeCode h sb n ∧ s = sb ++ rest := by
  have hz : h.template.2.1 = h.size.toNat := rfl
  rw [instructionSize, hz] at hs
  by_cases h0 : h.size.toNat = 0
  · rw [if_pos h0] at hs
    obtain ⟨bs, k1, k2⟩ := number_code hs hn
    exact ⟨bs, .inl ⟨UInt8.toNat_inj.1 h0, k1⟩, k2⟩
  · rw [if_neg h0] at hs
    simp only [Option.some.injEq, Prod.mk.injEq] at hs
    refine ⟨[], .inr ⟨fun e => h0 (by rw [e]; rfl), rfl, hs.1.symm⟩, by simpa using hs.2⟩

theorem half_grows {st st' : State} {t : Template} (h : st.half t = some st') : st.u.length ≤ st'.u.length := by
  rw [State.half] at h
  by_cases h0 : t.1 = 0
  · rw [if_pos h0] at h
    cases h; exact Nat.le_refl _
  rw [if_neg h0] at h
  cases hn : instructionSize t st.inst with
  | none => simp [hn] at h
  | some p =>
    obtain ⟨n, inst⟩ := p
    simp only [hn, Option.bind_eq_bind, Option.bind_some] at h
    by_cases h1 : t.1 = 1
    · rw [if_pos h1] at h
      by_cases hl : st.data.length < n
      · simp [hl] at h
      · simp only [if_neg hl, Option.some.injEq] at h
        subst h; simp
    rw [if_neg h1] at h
    by_cases h2 : t.1 = 2
    · rw [if_pos h2] at h
      cases hd : st.data with
      | nil => simp [hd] at h
      | cons b data =>
        simp only [hd, Option.some.injEq] at h
        subst h; simp
    rw [if_neg h2] at h
    cases ha : st.cache.address st.u.length t.2.2 st.addr with
    | none => simp [ha] at h
    | some p =>
      obtain ⟨a, addr⟩ := p
      simp only [ha, Option.bind_some] at h
      by_cases hl : st.u.length ≤ a
      · simp [hl] at h
      · simp only [if_neg hl, Option.some.injEq] at h
        subst h; simp [extend_length]

theorem run_grows {full : Option Nat} {fuel : Nat} : ∀ {st st' : State}, st.run full fuel = some st' → st.u.length ≤ st'.u.length := by
  induction fuel with
  | zero =>
    intro st st' h
    rw [State.run] at h
    by_cases hi : st.inst = []
    · rw [if_pos hi] at h; cases h; exact Nat.le_refl _
    · rw [if_neg hi] at h; cases h
  | succ fuel ih =>
    intro st st' h
    rw [State.run] at h
    cases hi : st.inst with
    | nil => simp only [hi, Option.some.injEq] at h; subst h; exact Nat.le_refl _
    | cons op inst =>
      simp only [hi] at h
      by_cases hf : full.any (· ≤ st.u.length) = true
      · rw [if_pos hf] at h; cases h
      rw [if_neg hf, reference_templates] at h
      simp only [Option.bind_eq_bind, Option.bind_some] at h
      cases h1 : State.half { st with inst } (defaultTable.first op).template with
      | none => simp [h1] at h
      | some st1 =>
        simp only [h1, Option.bind_some] at h
        cases h2 : st1.half (defaultTable.second op).template with
        | none => simp [h2] at h
        | some st2 =>
          simp only [h2, Option.bind_some] at h
          have a := half_grows h1
          have b := half_grows h2
          have c := ih h
          simp only at a
          omega

theorem half_some {hist : List Nat} {h : Half} {st st' : State} (hc : st.cache = Cache.ofHist hist) (ht : h.inst.toNat ≤ 3)
    (hm : h.mode.toNat ≤ 8) (hb : st'.u.length ≤ 2147483647) (hs : st.half h.template = some st') :
    ∃ items ops, HalfCode defaultCoding hist st.u.length h items ops ∧ st.data = items.flatMap Item.dataBytes ++ st'.data ∧
      st.inst = items.flatMap Item.inst ++ st'.inst ∧ st.addr = items.flatMap Item.addr ++ st'.addr ∧
      st'.u = execOps st.u ops ∧ st'.cache = Cache.ofHist (hist ++ addrs ops) := by
  have hi : h.template.1 = h.inst.toNat := rfl
  have hmode : h.template.2.2 = h.mode.toNat := rfl
  rw [State.half, hi] at hs
  by_cases h0 : h.inst.toNat = 0
  · rw [if_pos h0] at hs
    cases hs
    exact ⟨[], [], .noop h0, by simp, by simp, by simp, by simp [execOps], by simp [addrs, hc]⟩
  rw [if_neg h0] at hs
  cases hn : instructionSize h.template st.inst with
  | none => simp [hn] at hs
  | some p =>
    obtain ⟨n, inst⟩ := p
    simp only [hn, Option.bind_eq_bind, Option.bind_some] at hs
    by_cases h1 : h.inst.toNat = 1
    · rw [if_pos h1] at hs
      by_cases hl : st.data.length < n
      · simp [hl] at hs
      · simp only [if_neg hl, Option.some.injEq] at hs
        subst hs
        have hln : (st.data.take n).length = n := by simp; omega
        simp only [List.length_append, hln] at hb
        obtain ⟨sb, k1, k2⟩ := size_some hn (by omega)
        refine ⟨[.size sb, .data (st.data.take n)], [.add (st.data.take n)], .add h1 (by rw [hln]; exact k1), ?_⟩
        simp [Item.dataBytes, Item.inst, Item.addr, execOps, Op.apply, addrs, Op.addrs, k2, hc]
    rw [if_neg h1] at hs
    by_cases h2 : h.inst.toNat = 2
    · rw [if_pos h2] at hs
      cases hd : st.data with
      | nil => simp [hd] at hs
      | cons b data =>
        simp only [hd, Option.some.injEq] at hs
        subst hs
        simp only [List.length_append, List.length_replicate] at hb
        obtain ⟨sb, k1, k2⟩ := size_some hn (by omega)
        refine ⟨[.size sb, .data [b]], [.run b n], .run h2 k1, ?_⟩
        simp [Item.dataBytes, Item.inst, Item.addr, execOps, Op.apply, addrs, Op.addrs, k2, hc]
    rw [if_neg h2, hmode, hc] at hs
    cases ha : (Cache.ofHist hist).address st.u.length h.mode.toNat st.addr with
    | none => simp [ha] at hs
    | some p =>
      obtain ⟨a, addr⟩ := p
      simp only [ha, Option.bind_some] at hs
      by_cases hl : st.u.length ≤ a
      · simp [hl] at hs
      · simp only [if_neg hl, Option.some.injEq] at hs
        subst hs
        simp only [extend_length] at hb
        obtain ⟨sb, k1, k2⟩ := size_some hn (by omega)
        obtain ⟨bs, j1, j2⟩ := address_some hm ha
        refine ⟨[.size sb, .address bs], [.copy a n], .copy (by omega) k1 j1 (by omega) (by omega), ?_⟩
        simp [Item.dataBytes, Item.inst, Item.addr, execOps, Op.apply, addrs, Op.addrs, k2, j2, reference_update]

theorem default_first_bounds (op : UInt8) : (defaultTable.first op).inst.toNat ≤ 3 ∧ (defaultTable.first op).mode.toNat ≤ 8 := by
  rw [default_first]
  revert op
  apply forall_byte; decide +kernel

theorem default_second_bounds (op : UInt8) : (defaultTable.second op).inst.toNat ≤ 3 ∧ (defaultTable.second op).mode.toNat ≤ 8 ∧
    ((defaultTable.second op).inst.toNat ≠ 0 → (defaultTable.second op).size.toNat ≠ 0) := by
  rw [default_second]
  revert op
  apply forall_byte; decide +kernel

theorem HalfCode.operand_last {c : Coding} {hist : List Nat} {here : Nat} {h : Half} {items : List Item} {ops : List Op}
    (hc : HalfCode c hist here h items ops) (hne : h.inst.toNat ≠ 0) :
    (∃ front bs, items = front ++ [.data bs] ∨ items = front ++ [.address bs]) ∧
      ∃ o, ops = [o] ∧ (h.size.toNat ≠ 0 → 0 < o.size) := by
  have key : ∀ {sb n}, SizeCode h sb n → h.size.toNat ≠ 0 → 0 < n := by
    intro sb n hs h0
    rcases hs with ⟨e, _⟩ | ⟨_, _, e⟩
    · rw [e] at h0; exact absurd rfl h0
    · omega
  cases hc with
  | noop h1 => exact absurd h1 hne
  | @add sb bs _ hs => exact ⟨⟨[.size sb], bs, .inl rfl⟩, _, rfl, key hs⟩
  | @run sb n b _ hs => exact ⟨⟨[.size sb], [b], .inl rfl⟩, _, rfl, key hs⟩
  | @copy sb n bs a _ hs => exact ⟨⟨[.size sb], bs, .inr rfl⟩, _, rfl, key hs⟩

theorem HalfCode.nothing {c : Coding} {hist : List Nat} {here : Nat} {h : Half} {items : List Item} {ops : List Op}
    (hc : HalfCode c hist here h items ops) (h0 : h.inst.toNat = 0) : items = [] ∧ ops = [] := by
  cases hc with
  | noop => exact ⟨rfl, rfl⟩
  | add h1 => omega
  | run h1 => omega
  | copy h1 => omega

theorem operand_last_append {items : List Item} (pre : List Item)
    (h : ∃ front bs, items = front ++ [Item.data bs] ∨ items = front ++ [Item.address bs]) :
    ∃ front bs, pre ++ items = front ++ [Item.data bs] ∨ pre ++ items = front ++ [Item.address bs] := by
  obtain ⟨f, bs, h⟩ := h
  exact ⟨pre ++ f, bs, h.imp (by rintro rfl; simp) (by rintro rfl; simp)⟩

theorem run_some {tol : Tolerance} {full : Option Nat} {fuel : Nat} : ∀ {st st' : State} {hist : List Nat},
    st.cache = Cache.ofHist hist → st'.u.length ≤ 2147483647 → st.run full fuel = some st' →
    ∃ items ops, Program defaultCoding tol hist st.u.length items ops ∧ st.data = items.flatMap Item.dataBytes ++ st'.data ∧
      st.inst = items.flatMap Item.inst ∧ st.addr = items.flatMap Item.addr ++ st'.addr ∧ st'.u = execOps st.u ops ∧
      (full = some st'.u.length → Tight items ops) := by
  induction fuel with
  | zero =>
    intro st st' hist hc hb h
    rw [State.run] at h
    by_cases hi : st.inst = []
    · rw [if_pos hi] at h
      cases h
      exact ⟨[], [], .nil, by simp, by simp [hi], by simp, by simp [execOps], fun _ => .inl rfl⟩
    · rw [if_neg hi] at h; cases h
  | succ fuel ih =>
    intro st st' hist hc hb h
    rw [State.run] at h
    cases hi : st.inst with
    | nil =>
      simp only [hi, Option.some.injEq] at h
      subst h
      exact ⟨[], [], .nil, by simp, by simp, by simp, by simp [execOps], fun _ => .inl rfl⟩
    | cons op inst =>
      simp only [hi] at h
      by_cases hf : full.any (· ≤ st.u.length) = true
      · rw [if_pos hf] at h; cases h
      rw [if_neg hf, reference_templates] at h
      simp only [Option.bind_eq_bind, Option.bind_some] at h
      cases h1 : State.half { st with inst } (defaultTable.first op).template with
      | none => simp [h1] at h
      | some st1 =>
        simp only [h1, Option.bind_some] at h
        cases h2 : st1.half (defaultTable.second op).template with
        | none => simp [h2] at h
        | some st2 =>
          simp only [h2, Option.bind_some] at h
          have g2 := half_grows h2
          have g3 := run_grows h
          obtain ⟨i1, o1, a1, a2, a3, a4, a5, a6⟩ := half_some (st := { st with inst }) hc (default_first_bounds op).1
            (default_first_bounds op).2 (by omega) h1
          obtain ⟨i2, o2, b1, b2, b3, b4, b5, b6⟩ := half_some a6 (default_second_bounds op).1 (default_second_bounds op).2.1
            (by omega) h2
          obtain ⟨items, ops, c1, c2, c3, c4, c5, c6⟩ := ih b6 hb h
          simp only at a1 a2 a3 a4 a5
          have e1 : st1.u.length = st.u.length + sizes o1 := by rw [a5, execOps_length]
          have e2 : st2.u.length = st.u.length + sizes o1 + sizes o2 := by rw [b5, execOps_length, e1]
          rw [e1] at b1
          rw [e2] at c1
          refine ⟨.opcode op :: (i1 ++ i2 ++ items), o1 ++ o2 ++ ops, .cons a1 b1 c1, ?_, ?_, ?_, ?_, ?_⟩
          · rw [a2, b2, c2]; simp [Item.dataBytes]
          · rw [a3, b3, c3]; simp [Item.inst]
          · rw [a4, b4, c4]; simp [Item.addr]
          · rw [c5, b5, a5, execOps_append, execOps_append]
          · intro hfull
            right
            rcases c6 hfull with k | ⟨k1, front, o, k2, k3⟩
            · subst k
              have k : ops = [] := by
                generalize hx : ([] : List Item) = x at c1
                cases c1 with
                | nil => rfl
                | cons => cases hx
                | dangling => cases hx
              subst k
              have hlt : st.u.length < st'.u.length := by
                rw [hfull] at hf
                simpa using hf
              have e3 : st'.u.length = st2.u.length := by rw [c5]; rfl
              by_cases h0 : (defaultTable.second op).inst.toNat = 0
              · obtain ⟨rfl, rfl⟩ := HalfCode.nothing b1 h0
                obtain ⟨m1, o, rfl, _⟩ := HalfCode.operand_last a1 (default_first_inst op)
                refine ⟨?_, [], o, by simp, ?_⟩
                · have := operand_last_append [.opcode op] m1
                  simpa using this
                · simp only [sizes, List.map_cons, List.map_nil, List.sum_cons, List.sum_nil] at e2
                  omega
              · obtain ⟨m1, o, rfl, m2⟩ := HalfCode.operand_last b1 h0
                refine ⟨?_, o1, o, by simp, m2 ((default_second_bounds op).2.2 h0)⟩
                have := operand_last_append (.opcode op :: i1) m1
                simpa using this
            · refine ⟨?_, o1 ++ o2 ++ front, o, by rw [k2]; simp, k3⟩
              have := operand_last_append (.opcode op :: (i1 ++ i2)) k1
              simpa using this

theorem split_some {n : Nat} {s a b : Bytes} (h : split n s = some (a, b)) : s = a ++ b ∧ a.length = n := by
  rw [split] at h
  by_cases hl : s.length < n
  · rw [if_pos hl] at h; cases h
  · simp only [if_neg hl, Option.some.injEq, Prod.mk.injEq] at h
    obtain ⟨rfl, rfl⟩ := h
    exact ⟨(List.take_append_drop n s).symm, by simp; omega⟩

theorem source_some {ind : UInt8} {dict prev s src rest : Bytes} (hd : dict.length ≤ 2147483647) (hp : prev.length ≤ 2147483647)
    (h : source ind dict prev s = some (src, rest)) :
    ∃ seg, SourceCode true dict prev ind seg src ∧ s = seg ++ rest ∧ (src.length ≤ dict.length ∨ src.length ≤ prev.length) ∧ ind.toNat ≤ 2 := by
  rw [source] at h
  by_cases h0 : ind = 0
  · simp only [if_pos h0, Option.some.injEq, Prod.mk.injEq] at h
    obtain ⟨rfl, rfl⟩ := h
    exact ⟨[], .none (by rw [h0]; rfl), rfl, .inl (by simp), by rw [h0]; decide⟩
  rw [if_neg h0] at h
  have key : ∀ from_ : Bytes, from_.length ≤ 2147483647 → ((number 0 s).bind fun p => (number 0 p.2).bind fun q =>
      if from_.length < q.1 + p.1 then none else some ((from_.drop q.1).take p.1, q.2)) = some (src, rest) →
      ∃ lb pb len pos, NumCode lb len ∧ NumCode pb pos ∧ pos + len ≤ from_.length ∧ s = lb ++ pb ++ rest ∧ src = (from_.drop pos).take len := by
    intro from_ hfl h
    cases n1 : number 0 s with
    | none => simp [n1] at h
    | some p =>
      obtain ⟨len, s1⟩ := p
      simp only [n1, Option.bind_some] at h
      cases n2 : number 0 s1 with
      | none => simp [n2] at h
      | some q =>
        obtain ⟨pos, s2⟩ := q
        simp only [n2, Option.bind_some] at h
        by_cases hl : from_.length < pos + len
        · simp [hl] at h
        · simp only [if_neg hl, Option.some.injEq, Prod.mk.injEq] at h
          obtain ⟨lb, j1, j2⟩ := number_code n1 (by omega)
          obtain ⟨pb, j3, j4⟩ := number_code n2 (by omega)
          exact ⟨lb, pb, len, pos, j1, j3, by omega, by rw [j2, j4, h.2]; simp, h.1.symm⟩
  by_cases h1 : ind = 1
  · simp only [if_pos h1, Option.bind_eq_bind, Option.bind_some] at h
    obtain ⟨lb, pb, len, pos, j1, j2, j3, j4, j5⟩ := key dict hd h
    subst j5
    exact ⟨lb ++ pb, .dict (by rw [h1]; rfl) j1 j2 j3, j4, .inl (by simp; omega), by rw [h1]; decide⟩
  by_cases h2 : ind = 2
  · simp only [if_neg h1, if_pos h2, Option.bind_eq_bind, Option.bind_some] at h
    obtain ⟨lb, pb, len, pos, j1, j2, j3, j4, j5⟩ := key prev hp h
    subst j5
    exact ⟨lb ++ pb, .target (by rw [h2]; rfl) rfl j1 j2 j3, j4, .inr (by simp; omega), by rw [h2]; decide⟩
  · simp [h1, h2] at h

theorem body_some {picky : Bool} {tol : Tolerance} {src s T : Bytes} (ht : tol.trailing = true ∨ picky = true)
    (hs : s.length ≤ 2147483647) (hb : src.length + T.length ≤ 2147483647) (h : body picky src s = some T) :
    ∃ tlen dlen ilen alen data inst addr items ops, s = tlen ++ [0] ++ dlen ++ ilen ++ alen ++ (data ++ inst ++ addr) ∧
      Program defaultCoding tol [] src.length items ops ∧ (tol.trailing = true ∨ Tight items ops) ∧ execOps src ops = src ++ T ∧
      data = items.flatMap Item.dataBytes ∧ inst = items.flatMap Item.inst ∧ addr = items.flatMap Item.addr ∧
      NumCode tlen T.length ∧ NumCode dlen data.length ∧ NumCode ilen inst.length ∧ NumCode alen addr.length := by
  rw [body] at h
  simp only [Option.bind_eq_bind, Option.bind_eq_some_iff, Prod.exists] at h
  obtain ⟨tl, s1, n1, di, s2, p1, h⟩ := h
  by_cases hdi : di ≠ [0]
  · rw [if_pos hdi] at h; cases h
  rw [if_neg hdi] at h
  simp only [ne_eq, Decidable.not_not] at hdi
  subst hdi
  simp only [Option.bind_eq_some_iff, Prod.exists] at h
  obtain ⟨dl, s3, n2, il, s4, n3, al, s5, n4, data, s6, p2, inst, addr, p3, h⟩ := h
  by_cases hal : addr.length ≠ al
  · rw [if_pos hal] at h; cases h
  rw [if_neg hal] at h
  simp only [ne_eq, Decidable.not_not] at hal
  simp only [Option.bind_eq_some_iff] at h
  obtain ⟨st, hrun, h⟩ := h
  by_cases hend : st.data = [] ∧ st.addr = [] ∧ st.u.length = src.length + tl
  · rw [if_pos hend] at h
    simp only [Option.some.injEq] at h
    obtain ⟨e1, e2, e3⟩ := hend
    have hT : T.length = tl := by rw [← h]; simp; omega
    obtain ⟨q1, _⟩ := split_some p1
    obtain ⟨q2, l2⟩ := split_some p2
    obtain ⟨q3, l3⟩ := split_some p3
    obtain ⟨v1, _, w1, _⟩ := number_some n1
    obtain ⟨v2, _, w2, _⟩ := number_some n2
    obtain ⟨v3, _, w3, _⟩ := number_some n3
    obtain ⟨v4, _, w4, _⟩ := number_some n4
    have hlen : data.length + (inst.length + addr.length) ≤ s.length := by
      rw [w1, q1, w2, w3, w4, q2, q3]
      simp only [List.length_append]
      omega
    obtain ⟨tlen, k1, w1⟩ := number_code n1 (by omega)
    obtain ⟨dlen, k2, w2⟩ := number_code n2 (by omega)
    obtain ⟨ilen, k3, w3⟩ := number_code n3 (by omega)
    obtain ⟨alen, k4, w4⟩ := number_code n4 (by omega)
    obtain ⟨items, ops, r1, r2, r3, r4, r5, r6⟩ := run_some (tol := tol) (hist := []) (by exact reference_init) (by omega) hrun
    simp only [e1, e2, List.append_nil] at r1 r2 r3 r4 r5
    refine ⟨tlen, dlen, ilen, alen, data, inst, addr, items, ops, ?_, r1, ?_, ?_, r2, r3, r4, ?_, ?_, ?_, ?_⟩
    · rw [w1, q1, w2, w3, w4, q2, q3]; simp
    · refine ht.imp id fun hp => r6 ?_
      rw [if_pos hp, e3]
    · rw [← r5, ← h, r5]
      obtain ⟨t, e⟩ := execOps_prefix src ops
      rw [← e]; simp
    · rw [hT]; exact k1
    · rw [l2]; exact k2
    · rw [l3]; exact k3
    · rw [hal]; exact k4
  · rw [if_neg hend] at h; cases h

/-- The parts of a window, as the other decoder reads them. -/
theorem reading_of_parts {allow : Bool} {dict prev seg src dl tlen dlen ilen alen cks body : Bytes} {ind di : UInt8} {n0 n1 n2 n3 n4 : Nat}
    (hsrc : SourceCode allow dict prev ind seg src) (h0 : NumCode dl n0) (h1 : NumCode tlen n1) (h2 : NumCode dlen n2) (h3 : NumCode ilen n3)
    (h4 : NumCode alen n4) :
    ∃ R : Reading ([ind] ++ seg ++ dl ++ (tlen ++ [di] ++ dlen ++ ilen ++ alen ++ cks) ++ body), R.ind = ind ∧ R.di = di := by
  refine ⟨⟨ind, seg, dl, tlen, di, dlen, ilen, alen, cks, body, by simp, ?_, ?_, h0.1, h1.1, h2.1, h3.1, h4.1⟩, rfl, rfl⟩
  · intro e
    cases hsrc with
    | none _ => rfl
    | dict e' => rw [e] at e'; exact absurd e' (by decide)
    | target e' => rw [e] at e'; exact absurd e' (by decide)
  · intro e
    cases hsrc with
    | none e' => exact absurd e' e
    | dict _ a b => exact ⟨_, _, rfl, a.1, b.1⟩
    | target _ _ a b => exact ⟨_, _, rfl, a.1, b.1⟩

theorem source_ind {ind : UInt8} {dict prev s src s1 : Bytes} (h : source ind dict prev s = some (src, s1)) : ind.toNat ≤ 2 := by
  rw [source] at h
  by_cases h0 : ind = 0
  · rw [h0]; decide
  rw [if_neg h0] at h
  by_cases h1 : ind = 1
  · rw [h1]; decide
  by_cases h2 : ind = 2
  · rw [h2]; decide
  simp [h1, h2] at h

theorem window_some {picky : Bool} {tol : Tolerance} {S : Settings} {dict prev s T rest : Bytes} (ht : tol.trailing = true ∨ picky = true)
    (hS : S.allowTarget = true) (hw : T.length ≤ S.maxWindow) (hf : prev.length + T.length ≤ S.maxFile)
    (hs : s.length ≤ 2147483647) (hb : dict.length + prev.length + T.length ≤ 2147483647)
    (h : window picky dict prev s = some (T, rest)) :
    ∃ w, s = w ++ rest ∧ WindowCode defaultCoding false tol S dict prev w T ∧ PlainWindow w := by
  cases s with
  | nil => cases h
  | cons ind s =>
    simp only [window, Option.bind_eq_bind, Option.bind_eq_some_iff, Prod.exists, Option.some.injEq, Prod.mk.injEq] at h
    obtain ⟨src, s1, h1, len, s2, h2, delta, s3, h3, t, h4, rfl, rfl⟩ := h
    obtain ⟨seg, a1, a2, a3, _⟩ := source_some (by omega) (by omega) h1
    obtain ⟨b1, b2⟩ := split_some h3
    obtain ⟨v, _, v2, _⟩ := number_some h2
    have hlen : delta.length ≤ 2147483647 := by
      have : (ind :: s).length = 1 + (seg.length + (v.length + (delta.length + s3.length))) := by
        rw [a2, v2, b1]
        simp only [List.length_cons, List.length_append]
        omega
      omega
    obtain ⟨dl, c1, c2⟩ := number_code h2 (by omega)
    obtain ⟨tlen, dlen, ilen, alen, data, inst, addr, items, ops, d0, d1, d2, d3, d4, d5, d6, d7, d8, d9, d10⟩ :=
      body_some ht hlen (by omega) h4
    refine ⟨[ind] ++ seg ++ dl ++ (tlen ++ [0] ++ dlen ++ ilen ++ alen ++ []) ++ (data ++ inst ++ addr), ?_, ?_, ?_⟩
    · rw [a2, c2, b1, d0]; simp
    · refine .mk (surplus := 0) (by rw [hS]; exact a1) d1 d2 d3 hw hf ?_ (.inl rfl) d7 rfl d8 d9 d10 ?_ ?_ (.inr (.inl (by decide))) (by decide)
      · simp [SectionCode, d4, d5, d6]
      · simp [ChecksumCode]
      · rw [← b2, d0] at c1
        simpa only [List.length_append, List.append_nil, Nat.add_zero, Nat.add_assoc] using c1
    · obtain ⟨R, r1, r2⟩ := reading_of_parts (di := 0) (cks := []) (body := data ++ inst ++ addr) a1 c1 d7 d8 d9 d10
      exact ⟨R, by rw [r1]; exact source_ind h1, r2⟩

theorem number_rest {s rest : Bytes} {acc n : Nat} (h : number acc s = some (n, rest)) : rest.length ≤ s.length := by
  obtain ⟨bs, _, rfl, _⟩ := number_some h
  simp

theorem source_rest {ind : UInt8} {dict prev s src s1 : Bytes} (h1 : source ind dict prev s = some (src, s1)) : s1.length ≤ s.length := by
  rw [source] at h1
  by_cases h0 : ind = 0
  · simp only [if_pos h0, Option.some.injEq, Prod.mk.injEq] at h1
    rw [h1.2]; exact Nat.le_refl _
  · have key : ∀ from_ : Bytes, ((number 0 s).bind fun p => (number 0 p.2).bind fun q =>
        if from_.length < q.1 + p.1 then none else some ((from_.drop q.1).take p.1, q.2)) = some (src, s1) → s1.length ≤ s.length := by
      intro from_ h
      simp only [Option.bind_eq_some_iff, Prod.exists] at h
      obtain ⟨_, _, n1, _, _, n2, h⟩ := h
      have := number_rest n1
      have := number_rest n2
      split at h
      · cases h
      · simp only [Option.some.injEq, Prod.mk.injEq] at h
        rw [← h.2]; omega
    rw [if_neg h0] at h1
    by_cases i1 : ind = 1
    · simp only [if_pos i1, Option.bind_eq_bind, Option.bind_some] at h1
      exact key dict h1
    by_cases i2 : ind = 2
    · simp only [if_neg i1, if_pos i2, Option.bind_eq_bind, Option.bind_some] at h1
      exact key prev h1
    · simp [i1, i2] at h1

theorem window_rest {picky : Bool} {dict prev s T rest : Bytes} (h : window picky dict prev s = some (T, rest)) :
    rest.length ≤ s.length := by
  cases s with
  | nil => cases h
  | cons ind s =>
    simp only [window, Option.bind_eq_bind, Option.bind_eq_some_iff, Prod.exists, Option.some.injEq, Prod.mk.injEq] at h
    obtain ⟨src, s1, h1, len, s2, h2, delta, s3, h3, t, h4, rfl, rfl⟩ := h
    have a := number_rest h2
    obtain ⟨b, _⟩ := split_some h3
    have c := source_rest h1
    rw [b] at a
    simp only [List.length_append, List.length_cons] at a ⊢
    omega

theorem windows_some {picky : Bool} {tol : Tolerance} {S : Settings} {dict : Bytes} (ht : tol.trailing = true ∨ picky = true)
    (hS : S.allowTarget = true) {fuel : Nat} : ∀ {prev s R : Bytes}, R.length ≤ S.maxWindow → R.length ≤ S.maxFile →
      s.length ≤ 2147483647 → dict.length + R.length ≤ 2147483647 → windows picky dict fuel prev s = some R →
      ∃ T, R = prev ++ T ∧ Windows defaultCoding false tol S dict prev s T := by
  induction fuel with
  | zero =>
    intro prev s R _ _ _ _ h
    rw [windows] at h
    by_cases hi : s = []
    · rw [if_pos hi] at h
      cases h
      subst hi
      exact ⟨[], by simp, .nil⟩
    · rw [if_neg hi] at h; cases h
  | succ fuel ih =>
    intro prev s R hw hf hs hb h
    rw [windows] at h
    by_cases hi : s = []
    · rw [if_pos hi] at h
      cases h
      subst hi
      exact ⟨[], by simp, .nil⟩
    · rw [if_neg hi] at h
      simp only [Option.bind_eq_bind, Option.bind_eq_some_iff, Prod.exists] at h
      obtain ⟨t, s', h1, h2⟩ := h
      have hs' : s'.length ≤ s.length := window_rest h1
      obtain ⟨T, e, k⟩ := ih hw hf (by omega) hb h2
      have hl : R.length = prev.length + t.length + T.length := by rw [e]; simp; omega
      obtain ⟨w, rfl, hwc, _⟩ := window_some (tol := tol) (S := S) ht hS (by omega) (by omega) hs (by omega) h1
      exact ⟨t ++ T, by rw [e]; simp, .cons hwc k⟩

/-- What the other decoder accepts follows the grammar: that of the RFC, and if it is picky, that of both. -/
theorem reference_sound {picky : Bool} {tol : Tolerance} {S : Settings} {dict delta T : Bytes} (ht : tol.trailing = true ∨ picky = true)
    (hS : S.allowTarget = true) (hw : T.length ≤ S.maxWindow) (hf : T.length ≤ S.maxFile) (hs : delta.length ≤ 2147483647)
    (hb : dict.length + T.length ≤ 2147483647) (h : Reference.decode picky dict delta = some T) : FileCode tol S dict delta T := by
  unfold Reference.decode at h
  split at h
  · rename_i s
    simp only [List.length_cons] at hs
    obtain ⟨T', e, k⟩ := windows_some (tol := tol) ht hS hw hf (by omega) hb h
    simp only [List.nil_append] at e
    subst e
    exact .mk (hdr := [0xD6, 0xC3, 0xC4, 0, 0]) (.plain (v := 0) (hi := 0) (.inl rfl) rfl) k
  · cases h

end Vcd
