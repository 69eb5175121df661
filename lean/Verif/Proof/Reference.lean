import Verif.Spec.Reference
import Verif.Proof.AddrCache
import Verif.Proof.Exec
import Verif.Proof.RfcUnique
import Verif.Proof.Eager
import Verif.Props.CodeTable

/-!
# The other decoder and the grammar

Each part of `Spec.Reference` reads what the grammar of `Spec.Rfc` derives.
-/

namespace Vcd
open Spec Spec.Reference

theorem reference_number {bs : Bytes} (h : IsVarint bs) (acc : Nat) (rest : Bytes) :
    number acc (bs ++ rest) = some (acc * 128 ^ bs.length + varintValue bs, rest) := by
  obtain ⟨front, last, rfl, h1, h2⟩ := h
  induction front generalizing acc with
  | nil =>
    simp only [continues, Nat.not_le] at h2
    simp [number, h2, varintValue, digitsValue, digit]
  | cons b front ih =>
    have hb : ¬ b.toNat < 128 := by have := h1 b List.mem_cons_self; simpa [continues] using this
    simp only [List.cons_append, number, if_neg hb]
    rw [ih _ (fun x hx => h1 x (List.mem_cons_of_mem _ hx))]
    rw [varintValue_cons]
    simp only [digit, List.length_cons, Nat.pow_succ, Option.some.injEq, Prod.mk.injEq, and_true]
    rw [Nat.add_mul, Nat.mul_assoc, Nat.mul_comm 128]
    omega

theorem reference_num {bs : Bytes} {n : Nat} (h : NumCode bs n) (rest : Bytes) : number 0 (bs ++ rest) = some (n, rest) := by
  rw [reference_number h.1, h.2.1]; simp

/-- The caches after the addresses `hist`. -/
def Spec.Reference.Cache.ofHist (hist : List Nat) : Cache :=
  { near := (List.range 4).map (nearSlot 4 hist), next := hist.length % 4, same := (List.range 768).map (sameSlot 3 hist) }

theorem reference_init : Cache.init = Cache.ofHist [] := by
  simp only [Cache.init, Cache.ofHist, Cache.mk.injEq]
  refine ⟨?_, rfl, ?_⟩
  · apply List.ext_getElem
    · rw [List.length_replicate, List.length_map, List.length_range]
    · intro i _ _
      rw [List.getElem_replicate, List.getElem_map, nearSlot_nil]
  · apply List.ext_getElem
    · rw [List.length_replicate, List.length_map, List.length_range]
    · intro i _ _
      rw [List.getElem_replicate, List.getElem_map, sameSlot_nil]

theorem reference_update (hist : List Nat) (a : Nat) : (Cache.ofHist hist).update a = Cache.ofHist (hist ++ [a]) := by
  simp only [Cache.update, Cache.ofHist, Cache.mk.injEq]
  refine ⟨?_, by simp, ?_⟩
  · apply List.ext_getElem
    · simp
    · intro i h1 h2
      simp only [List.getElem_set, List.getElem_map, List.getElem_range, nearSlot_snoc]
  · apply List.ext_getElem
    · simp
    · intro i h1 h2
      simp only [List.getElem_set, List.getElem_map, List.getElem_range, sameSlot_snoc]

theorem reference_address {hist : List Nat} {here mode a : Nat} {bs : Bytes} (h : AddrCode 4 3 hist here mode bs a) (rest : Bytes) :
    (Cache.ofHist hist).address here mode (bs ++ rest) = some (a, rest) := by
  cases h with
  | self h1 h2 => simp [Cache.address, reference_number h1, h2]
  | here h1 h2 =>
    simp only [Cache.address, reference_number h1]
    rw [if_neg (by decide), if_pos trivial]
    simp only [Nat.zero_mul, Nat.zero_add, Option.bind_some]
    rw [if_pos (by omega)]
    simp only [Option.some.injEq, Prod.mk.injEq, and_true]
    omega
  | @near i _ _ h1 h2 h3 =>
    simp only [Cache.address, reference_number h2]
    rw [if_neg (by omega), if_neg (by omega), if_pos (by omega)]
    have e : 2 + i - 2 = i := by omega
    simp [Cache.ofHist, e, h3, h1]
  | @same i b _ h1 h2 =>
    simp only [Cache.address]
    rw [if_neg (by omega), if_neg (by omega), if_neg (by omega)]
    have e : 2 + 4 + i - 6 = i := by omega
    have hb := b.toNat_lt
    have : i * 256 + b.toNat < 768 := by omega
    simp [Cache.ofHist, e, h2, this]

/-- Half an opcode, as the RFC writes it. -/
def Half.template (h : Half) : Template := (h.inst.toNat, h.size.toNat, h.mode.toNat)

theorem reference_size {h : Half} {sb : Bytes} {n : Nat} (hs : SizeCode h sb n) (rest : Bytes) :
    instructionSize h.template (sb ++ rest) = some (n, rest) := by
  have hz : h.template.2.1 = h.size.toNat := rfl
  rcases hs with ⟨h1, h2⟩ | ⟨h1, h2, h3⟩
  · rw [instructionSize, if_pos (by rw [hz, h1]; rfl)]; exact reference_num h2 rest
  · have : h.template.2.1 ≠ 0 := fun e => h1 (UInt8.toNat_inj.1 e)
    rw [instructionSize, if_neg this, h2, h3]; rfl

theorem reference_half {hist : List Nat} {h : Half} {items : List Item} {ops : List Op} {u data inst addr : Bytes}
    (hc : HalfCode defaultCoding hist u.length h items ops) :
    State.half { data := items.flatMap Item.dataBytes ++ data, inst := items.flatMap Item.inst ++ inst,
                 addr := items.flatMap Item.addr ++ addr, u, cache := Cache.ofHist hist } h.template =
      some { data, inst, addr, u := execOps u ops, cache := Cache.ofHist (hist ++ addrs ops) } := by
  have ht : h.template.1 = h.inst.toNat := rfl
  cases hc with
  | noop h1 => simp [State.half, ht, h1, execOps, addrs]
  | @add sb bs h1 h2 =>
    have := reference_size h2 inst
    simp [State.half, ht, h1, Item.dataBytes, Item.inst, Item.addr, this, execOps, Op.apply, addrs, Op.addrs]
  | @run sb n b h1 h2 =>
    have := reference_size h2 inst
    simp [State.half, ht, h1, Item.dataBytes, Item.inst, Item.addr, this, execOps, Op.apply, addrs, Op.addrs]
  | @copy sb n bs a h1 h2 h3 h4 h5 =>
    have := reference_size h2 inst
    have ha : (Cache.ofHist hist).address u.length h.template.2.2 (bs ++ addr) = some (a, addr) := reference_address h3 addr
    simp [State.half, ht, h1, Item.dataBytes, Item.inst, Item.addr, this, execOps, Op.apply, addrs, Op.addrs, ha,
      Nat.not_le.2 h4, reference_update]

theorem reference_half_nothing {h : Half} (hne : h.inst.toNat ≠ 0) (u : Bytes) (k : Cache) :
    State.half { data := [], inst := [], addr := [], u, cache := k } h.template = none := by
  have ha : ∀ here mode, k.address here mode [] = none := by
    intro here mode
    simp [Cache.address, number]
  have ht : h.template.1 = h.inst.toNat := rfl
  rw [State.half, if_neg (by rw [ht]; exact hne)]
  by_cases hz : h.template.2.1 = 0
  · simp [hz, instructionSize, number]
  · simp only [instructionSize, if_neg hz]
    by_cases h1 : h.template.1 = 1
    · simp [h1, Nat.pos_of_ne_zero hz]
    · by_cases h2 : h.template.1 = 2
      · simp [h2]
      · simp [h1, h2, ha]

theorem reference_templates (op : UInt8) :
    rfcTable[op.toNat]? = some ((defaultTable.first op).template, (defaultTable.second op).template) :=
  (Props.default_table_is_rfc op).1

/-- The instructions end with one that produces something. -/
def EndsUseful (items : List Item) (ops : List Op) : Prop := items = [] ∨ ∃ front o, ops = front ++ [o] ∧ 0 < o.size

theorem Spec.Tight.endsUseful {items : List Item} {ops : List Op} (h : Tight items ops) : EndsUseful items ops :=
  h.imp id (·.2)

theorem default_first_inst (op : UInt8) : (defaultTable.first op).inst.toNat ≠ 0 := by
  rw [default_first]
  revert op
  apply forall_byte; decide +kernel

theorem HalfCode.one_op {c : Coding} {hist : List Nat} {here : Nat} {h : Half} {items : List Item} {ops : List Op}
    (hc : HalfCode c hist here h items ops) (hne : h.inst.toNat ≠ 0) : ∃ o, ops = [o] := by
  cases hc with
  | noop h1 => exact absurd h1 hne
  | add => exact ⟨_, rfl⟩
  | run => exact ⟨_, rfl⟩
  | copy => exact ⟨_, rfl⟩

theorem default_program_ops {tol : Tolerance} {hist : List Nat} {here : Nat} {items : List Item} {ops : List Op}
    (h : Program defaultCoding tol hist here items ops) (hne : items ≠ []) : ops ≠ [] := by
  cases h with
  | nil => exact absurd rfl hne
  | cons h1 h2 h3 =>
    obtain ⟨o, rfl⟩ := HalfCode.one_op h1 (default_first_inst _)
    simp
  | dangling _ _ h1 =>
    obtain ⟨o, rfl⟩ := HalfCode.one_op h1 (default_first_inst _)
    simp

theorem EndsUseful.tail {tol : Tolerance} {hist : List Nat} {here : Nat} {items all : List Item} {pre ops : List Op}
    (h : Program defaultCoding tol hist here items ops) (hall : all ≠ []) (hu : EndsUseful all (pre ++ ops)) :
    EndsUseful items ops := by
  by_cases hi : items = []
  · exact .inl hi
  · right
    rcases hu with hu | ⟨front, o, e, ho⟩
    · exact absurd hu hall
    · have hops := default_program_ops h hi
      obtain ⟨f, x, rfl⟩ : ∃ f x, ops = f ++ [x] := ⟨ops.dropLast, ops.getLast hops, (List.dropLast_concat_getLast hops).symm⟩
      rw [← List.append_assoc] at e
      have := List.append_inj' e rfl
      simp only [List.cons.injEq, and_true] at this
      exact ⟨f, x, rfl, by rw [this.2]; exact ho⟩

theorem EndsUseful.pos {items : List Item} {ops : List Op} (h : EndsUseful items ops) (hne : items ≠ []) : 0 < sizes ops := by
  rcases h with h | ⟨front, o, rfl, ho⟩
  · exact absurd h hne
  · rw [sizes_append]
    simp only [sizes, List.map_cons, List.map_nil, List.sum_cons, List.sum_nil]
    omega

/-- The size at which no opcode may follow is the right one, and none follows. -/
def FullOk (full : Option Nat) (here : Nat) (items : List Item) (ops : List Op) : Prop :=
  ∀ b, full = some b → b = here + sizes ops ∧ EndsUseful items ops

theorem reference_run {tol : Tolerance} {hist : List Nat} {here : Nat} {items : List Item} {ops : List Op}
    (h : Program defaultCoding tol hist here items ops) (full : Option Nat) :
    ∀ (u : Bytes) (fuel : Nat), u.length = here → (items.flatMap Item.inst).length ≤ fuel →
      let r := State.run full fuel ⟨items.flatMap Item.dataBytes, items.flatMap Item.inst, items.flatMap Item.addr, u, Cache.ofHist hist⟩
      r = some { data := [], inst := [], addr := [], u := execOps u ops, cache := Cache.ofHist (hist ++ addrs ops) } ∨
        ((tol.dangling = true ∨ ¬ FullOk full here items ops) ∧ r = none) := by
  induction h with
  | nil =>
    intro u fuel _ _
    left
    cases fuel <;> simp [State.run, execOps, addrs]
  | @cons hist here op i1 o1 i2 o2 items ops h1 h2 h3 ih =>
    intro u fuel hu hf
    subst hu
    cases fuel with
    | zero => simp [Item.inst] at hf
    | succ fuel =>
      by_cases hfull : full.any (· ≤ u.length) = true
      · right
        refine ⟨.inr fun hok => ?_, ?_⟩
        · cases full with
          | none => cases hfull
          | some b =>
            obtain ⟨e, hu⟩ := hok b rfl
            have := hu.pos (by simp)
            simp only [Option.any_some, decide_eq_true_eq] at hfull
            omega
        · simp [Item.inst, State.run, hfull]
      have e1 : (execOps u o1).length = u.length + sizes o1 := execOps_length o1 u
      have e2 : (execOps (execOps u o1) o2).length = u.length + sizes o1 + sizes o2 := by rw [execOps_length, e1]
      have k1 := reference_half (data := i2.flatMap Item.dataBytes ++ items.flatMap Item.dataBytes)
        (inst := i2.flatMap Item.inst ++ items.flatMap Item.inst) (addr := i2.flatMap Item.addr ++ items.flatMap Item.addr) h1
      rw [← e1] at h2
      have k2 := reference_half (data := items.flatMap Item.dataBytes) (inst := items.flatMap Item.inst)
        (addr := items.flatMap Item.addr) h2
      have hf' : (items.flatMap Item.inst).length ≤ fuel := by
        simp only [List.flatMap_cons, List.flatMap_append, List.length_append, Item.inst, List.length_cons, List.length_nil] at hf
        omega
      have k3 := ih (execOps (execOps u o1) o2) fuel e2 hf'
      have hrun : State.run full (fuel + 1) ⟨(Item.opcode op :: (i1 ++ i2 ++ items)).flatMap Item.dataBytes,
          (Item.opcode op :: (i1 ++ i2 ++ items)).flatMap Item.inst,
          (Item.opcode op :: (i1 ++ i2 ++ items)).flatMap Item.addr, u, Cache.ofHist hist⟩ =
          State.run full fuel ⟨items.flatMap Item.dataBytes, items.flatMap Item.inst,
            items.flatMap Item.addr, execOps (execOps u o1) o2, Cache.ofHist (hist ++ addrs o1 ++ addrs o2)⟩ := by
        simp only [List.flatMap_cons, List.flatMap_append, Item.inst, Item.dataBytes, Item.addr, List.nil_append, List.cons_append,
          List.append_assoc, State.run]
        rw [if_neg hfull, reference_templates]
        simp only [Option.bind_eq_bind, Option.bind_some]
        have d1 : defaultCoding.table = defaultTable := rfl
        rw [d1] at k1 k2
        rw [k1]
        simp only [Option.bind_some]
        rw [k2]
        simp
      simp only
      rw [hrun]
      rw [execOps_append, execOps_append]
      have : addrs (o1 ++ o2 ++ ops) = addrs o1 ++ addrs o2 ++ addrs ops := by simp [addrs]
      rw [this, ← List.append_assoc, ← List.append_assoc]
      refine k3.imp id fun ⟨k4, k5⟩ => ⟨k4.imp id fun k6 k7 => k6 fun b hb => ?_, k5⟩
      obtain ⟨j1, j2⟩ := k7 b hb
      refine ⟨?_, EndsUseful.tail h3 (by simp) j2⟩
      rw [j1, sizes_append, sizes_append]
      omega
  | @dangling hist here op i1 o1 h1 h2 h3 =>
    intro u fuel hu hf
    subst hu
    right
    refine ⟨.inl h1, ?_⟩
    cases fuel with
    | zero => simp [Item.inst] at hf
    | succ fuel =>
      have k1 := reference_half (data := []) (inst := []) (addr := []) h3
      have k2 := reference_half_nothing h2 (execOps u o1) (Cache.ofHist (hist ++ addrs o1))
      have d1 : defaultCoding.table = defaultTable := rfl
      rw [d1] at k1 k2
      simp only [List.append_nil] at k1
      simp only [List.flatMap_cons, Item.inst, Item.dataBytes, Item.addr, List.nil_append, List.cons_append, State.run]
      by_cases hfull : full.any (· ≤ u.length) = true
      · rw [if_pos hfull]
      rw [if_neg hfull, reference_templates]
      simp only [Option.bind_eq_bind, Option.bind_some]
      rw [k1]
      simp only [Option.bind_some]
      rw [k2]
      rfl

theorem reference_split (a b : Bytes) : split a.length (a ++ b) = some (a, b) := by simp [split]

theorem reference_source {s : Settings} {dict prev seg src : Bytes} {ind : UInt8}
    (h : SourceCode s.allowTarget dict prev ind seg src) (rest : Bytes) :
    (ind.toNat ≤ 2 → source ind dict prev (seg ++ rest) = some (src, rest)) ∧
    (¬ ind.toNat ≤ 2 → source ind dict prev (seg ++ rest) = none) := by
  have key : ∀ ind : UInt8, (ind.toNat ≤ 2 → (ind &&& 3 = 0 → ind = 0) ∧ (ind &&& 3 = 1 → ind = 1) ∧ (ind &&& 3 = 2 → ind = 2)) ∧
      (¬ ind.toNat ≤ 2 → ind ≠ 0 ∧ ind ≠ 1 ∧ ind ≠ 2) := by
    apply forall_byte; decide +kernel
  refine ⟨fun hi => ?_, fun hi => ?_⟩
  · obtain ⟨h0, h1, h2⟩ := (key ind).1 hi
    cases h with
    | none e => simp [source, h0 e]
    | dict e n1 n2 le =>
      simp [source, h1 e, reference_num n1, reference_num n2, Nat.not_lt.2 le]
    | target e _ n1 n2 le =>
      simp [source, h2 e, reference_num n1, reference_num n2, Nat.not_lt.2 le]
  · obtain ⟨h0, h1, h2⟩ := (key ind).2 hi
    simp [source, h0, h1, h2]

/-- What the other decoder can find: the right result or none, and the right one under the condition `p`. -/
def RightOrNone {α : Type} (p : Prop) (r : Option α) (x : α) : Prop := (p → r = some x) ∧ (r = some x ∨ r = none)

theorem reference_body {picky : Bool} {tol : Tolerance} {src tlen dlen ilen alen data inst addr T : Bytes} {di : UInt8} {items : List Item}
    {ops : List Op} (program : Program defaultCoding tol [] src.length items ops) (exec : execOps src ops = src ++ T)
    (hd : data = items.flatMap Item.dataBytes) (hi : inst = items.flatMap Item.inst) (ha : addr = items.flatMap Item.addr)
    (n1 : NumCode tlen T.length) (n2 : NumCode dlen data.length) (n3 : NumCode ilen inst.length) (n4 : NumCode alen addr.length) :
    RightOrNone (tol.dangling = false ∧ di = 0 ∧ (picky = true → EndsUseful items ops)) (body picky src (tlen ++ [di] ++ dlen ++ ilen ++ alen ++ (data ++ inst ++ addr))) T := by
  have hbody : body picky src (tlen ++ [di] ++ dlen ++ ilen ++ alen ++ (data ++ inst ++ addr)) =
      if di ≠ 0 then none
      else (State.run (if picky then some (src.length + T.length) else none) inst.length ⟨data, inst, addr, src, Cache.init⟩).bind fun st =>
        if st.data = [] ∧ st.addr = [] ∧ st.u.length = src.length + T.length then some (st.u.drop src.length) else none := by
    have s1 : ∀ r : Bytes, split 1 (di :: r) = some ([di], r) := fun r => by simp [split]
    have s2 : split data.length (data ++ (inst ++ addr)) = some (data, inst ++ addr) := reference_split _ _
    have s3 : split inst.length (inst ++ addr) = some (inst, addr) := reference_split _ _
    simp only [List.append_assoc, List.cons_append, List.nil_append, body, reference_num n1, reference_num n2, reference_num n3,
      reference_num n4, s1, s2, s3, Option.bind_eq_bind, Option.bind_some, ne_eq, not_true_eq_false, if_false]
    by_cases h : di = 0
    · simp [h]
    · simp [h]
  rw [hbody]
  by_cases h : di = 0
  · rw [if_neg (by simp [h])]
    subst hd hi ha
    have hrun := reference_run program (if picky then some (src.length + T.length) else none) src (items.flatMap Item.inst).length rfl (Nat.le_refl _)
    simp only at hrun
    rw [← reference_init] at hrun
    rcases hrun with hrun | ⟨hrun, h2⟩
    · rw [hrun]
      simp [RightOrNone, exec]
    · rw [h2]
      refine ⟨fun ⟨p1, _, p2⟩ => ?_, .inr rfl⟩
      exfalso
      rcases hrun with hrun | hrun
      · rw [hrun] at p1
        cases p1
      · apply hrun
        intro b hb
        cases picky with
        | false => cases hb
        | true =>
          simp only [if_true, Option.some.injEq] at hb
          refine ⟨?_, p2 rfl⟩
          have := execOps_length ops src
          rw [exec, List.length_append] at this
          omega
  · rw [if_pos h]
    exact ⟨fun hp => absurd hp.2.1 h, .inr rfl⟩

theorem reference_window {picky : Bool} {tol : Tolerance} {s : Settings} {dict prev w T : Bytes}
    (h : WindowCode defaultCoding false tol s dict prev w T) (rest : Bytes) :
    RightOrNone (tol.dangling = false ∧ (picky = true → tol.trailing = false) ∧ ∃ R : Reading w, R.ind.toNat ≤ 2 ∧ R.di = 0)
      (window picky dict prev (w ++ rest)) (T, rest) := by
  cases h with
  | @mk ind di seg src dl tlen dlen ilen alen cks data inst addr _ items ops surplus
      source program tight exec wl fl sections noSurplus n1 hdi n2 n3 n4 checksum n5 copies caches =>
    have hs : surplus = 0 := by
      rcases noSurplus with h | ⟨_, h, _⟩
      · exact h
      · cases h
    have hck : cks = [] := by simpa [ChecksumCode] using checksum
    subst hs hck
    have hsec : data = items.flatMap Item.dataBytes ∧ inst = items.flatMap Item.inst ∧ addr = items.flatMap Item.addr := by
      simpa [SectionCode] using sections
    simp only [List.append_nil, Nat.add_zero] at n3 n5 ⊢
    have hb := reference_body (picky := picky) (di := di) program exec hsec.1 hsec.2.1 hsec.2.2 n1 n2 n3 n4
    have hsrc := reference_source source (dl ++ ((tlen ++ [di] ++ dlen ++ ilen ++ alen ++ (data ++ inst ++ addr)) ++ rest))
    have hsplit := reference_split (tlen ++ [di] ++ dlen ++ ilen ++ alen ++ (data ++ inst ++ addr)) rest
    have hlen : (tlen ++ [di] ++ dlen ++ ilen ++ alen ++ (data ++ inst ++ addr)).length =
        (tlen ++ [di] ++ dlen ++ ilen ++ alen).length + (data.length + inst.length + addr.length) := by
      simp only [List.length_append]
    have hwin : ([ind] ++ seg ++ dl ++ (tlen ++ [di] ++ dlen ++ ilen ++ alen) ++ (data ++ inst ++ addr)) ++ rest =
        ind :: (seg ++ (dl ++ ((tlen ++ [di] ++ dlen ++ ilen ++ alen ++ (data ++ inst ++ addr)) ++ rest))) := by
      simp only [List.append_assoc, List.cons_append, List.nil_append]
    rw [hlen] at hsplit
    have hval : ind.toNat ≤ 2 → window picky dict prev (([ind] ++ seg ++ dl ++ (tlen ++ [di] ++ dlen ++ ilen ++ alen) ++ (data ++ inst ++ addr)) ++ rest)
        = (body picky src (tlen ++ [di] ++ dlen ++ ilen ++ alen ++ (data ++ inst ++ addr))).map fun t => (t, rest) := by
      intro hi
      rw [hwin, window]
      simp only [Option.bind_eq_bind]
      rw [hsrc.1 hi]
      simp only [Option.bind_some]
      rw [reference_num n5]
      simp only [Option.bind_some]
      rw [hsplit]
      simp only [Option.bind_some]
      cases body picky src (tlen ++ [di] ++ dlen ++ ilen ++ alen ++ (data ++ inst ++ addr)) <;> rfl
    by_cases hi : ind.toNat ≤ 2
    · rw [hval hi]
      refine ⟨fun ⟨hp, ht, R, hR⟩ => ?_, ?_⟩
      · have hdi : di = 0 := by
          obtain ⟨ind', seg', dl', tlen', di', dlen', ilen', alen', cks', body', e, m1, m2, v1, v2, v3, v4, v5⟩ := R
          simp only at hR
          simp only [List.append_assoc, List.cons_append, List.nil_append, List.cons.injEq] at e
          obtain ⟨rfl, q⟩ := e
          have q0 : dl ++ (tlen ++ di :: (dlen ++ (ilen ++ (alen ++ (data ++ (inst ++ addr)))))) =
              dl' ++ (tlen' ++ di' :: (dlen' ++ (ilen' ++ (alen' ++ (cks' ++ body'))))) := by
            cases source with
            | none e0 => rw [m1 e0] at q; exact q
            | dict e0 l1 l2 _ =>
              obtain ⟨lb', pb', rfl, k1', k2'⟩ := m2 (by rw [e0]; decide)
              simp only [List.append_assoc] at q
              exact (l2.1.unique k2' (l1.1.unique k1' q).2).2
            | target e0 _ l1 l2 _ =>
              obtain ⟨lb', pb', rfl, k1', k2'⟩ := m2 (by rw [e0]; decide)
              simp only [List.append_assoc] at q
              exact (l2.1.unique k2' (l1.1.unique k1' q).2).2
          have q2 := (n1.1.unique v2 (n5.1.unique v1 q0).2).2
          simp only [List.cons.injEq] at q2
          exact q2.1.trans hR.2
        rw [hb.1 ⟨hp, hdi, fun hk => (tight.resolve_left (by rw [ht hk]; decide)).endsUseful⟩]; rfl
      · rcases hb.2 with hb | hb <;> rw [hb]
        · exact .inl rfl
        · exact .inr rfl
    · have hnone : window picky dict prev (([ind] ++ seg ++ dl ++ (tlen ++ [di] ++ dlen ++ ilen ++ alen) ++ (data ++ inst ++ addr)) ++ rest) = none := by
        rw [hwin, window]
        simp only [Option.bind_eq_bind]
        rw [hsrc.2 hi]
        rfl
      rw [hnone]
      refine ⟨fun ⟨_, _, R, hR⟩ => ?_, .inr rfl⟩
      have : R.ind = ind := by
        have e := R.bytes
        simp only [List.append_assoc, List.cons_append, List.nil_append, List.cons.injEq] at e
        exact e.1.symm
      rw [this] at hR
      exact absurd hR.1 hi

/-- No window of the list uses a bit that the RFC does not define. -/
def Spec.PlainWindow (w : Bytes) : Prop := ∃ R : Reading w, R.ind.toNat ≤ 2 ∧ R.di = 0

theorem WindowCode.ne_nil {c : Coding} {ext : Bool} {tol : Tolerance} {s : Settings} {dict prev w T : Bytes}
    (h : WindowCode c ext tol s dict prev w T) : w ≠ [] := by
  cases h; simp

theorem reference_windows {picky : Bool} {tol : Tolerance} {s : Settings} {dict prev ws T : Bytes}
    (h : Windows defaultCoding false tol s dict prev ws T) :
    ∀ fuel, ws.length ≤ fuel → windows picky dict fuel prev ws = some (prev ++ T) ∨ windows picky dict fuel prev ws = none := by
  induction h with
  | nil => intro fuel _; left; cases fuel <;> simp [windows]
  | @cons prev w T ws Ts h1 h2 ih =>
    intro fuel hf
    have hne := WindowCode.ne_nil h1
    cases fuel with
    | zero => simp [hne] at hf
    | succ fuel =>
      have hpos : 0 < w.length := List.length_pos_iff.2 hne
      simp only [List.length_append] at hf
      rw [windows, if_neg (by simp [hne])]
      simp only [Option.bind_eq_bind]
      rcases (reference_window h1 ws).2 with e | e
      · rw [e]
        simp only [Option.bind_some]
        rw [← List.append_assoc]
        exact ih fuel (by omega)
      · rw [e]
        right; rfl

theorem reference_chunks {picky : Bool} {dict : Bytes} {window : Bytes → Bytes} (h0 : window [] = []) :
    ∀ (chunks : List Bytes), (∀ data ∈ chunks, data ≠ [] → PlainWindow (window data) ∧
        ∀ prev, ∃ s, WindowCode defaultCoding false strict s dict prev (window data) data) →
      ∀ (fuel : Nat) (prev : Bytes), (chunks.flatMap window).length ≤ fuel →
        windows picky dict fuel prev (chunks.flatMap window) = some (prev ++ chunks.flatten) := by
  intro chunks
  induction chunks with
  | nil => intro _ fuel prev _; cases fuel <;> simp [windows]
  | cons data chunks ih =>
    intro h fuel prev hf
    have ih := ih fun d hd => h d (List.mem_cons_of_mem _ hd)
    by_cases hd : data = []
    · subst hd
      simp only [List.flatMap_cons, h0, List.nil_append, List.flatten_cons] at hf ⊢
      exact ih fuel prev hf
    · obtain ⟨hp, hw⟩ := h data List.mem_cons_self hd
      obtain ⟨s, hw⟩ := hw prev
      have hne := WindowCode.ne_nil hw
      have hpos : 0 < (window data).length := List.length_pos_iff.2 hne
      simp only [List.flatMap_cons, List.length_append] at hf
      cases fuel with
      | zero => omega
      | succ fuel =>
        rw [List.flatMap_cons, windows, if_neg (by simp [hne])]
        simp only [Option.bind_eq_bind]
        rw [(reference_window hw (chunks.flatMap window)).1 ⟨rfl, fun _ => rfl, hp⟩]
        simp only [Option.bind_some]
        rw [ih fuel (prev ++ data) (by omega)]
        simp

/-- The other decoder and the grammar of this library agree wherever both give a meaning. -/
theorem reference_file {picky : Bool} {s : Settings} {dict delta T T' : Bytes} (h : FileCode library s dict delta T)
    (h' : Reference.decode picky dict delta = some T') : T' = T := by
  cases h with
  | empty _ => simp [Reference.decode] at h'
  | mk hh hw =>
    cases hh with
    | rfc ht => cases ht
    | library _ _ hi =>
      exfalso
      unfold Reference.decode at h'
      split at h'
      · rename_i e
        simp only [List.append_assoc, List.cons_append, List.nil_append, List.cons.injEq] at e
        rw [e.2.2.2.2.1] at hi
        revert hi; decide
      · cases h'
    | @plain v hi _ hv hhi =>
      unfold Reference.decode at h'
      split at h'
      · rename_i r e
        simp only [List.cons_append, List.nil_append, List.cons.injEq, true_and] at e
        obtain ⟨rfl, rfl, rfl⟩ := e
        rcases reference_windows hw _ (Nat.le_refl _) with k | k
        · rw [k] at h'
          simpa using h'.symm
        · rw [k] at h'
          cases h'
      · cases h'

end Vcd
