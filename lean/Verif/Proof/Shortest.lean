import Verif.Spec.Shortest
import Verif.Proof.Writer

/-!
# The writer's windows are as short as can be
-/

namespace Vcd
open Spec

namespace Writer

/-! ## Merging neighbours -/

section Greedy
variable {α : Type} (pair : α → α → Bool) (c : α → Nat)

/-- The bytes for opcodes and sizes if each opcode takes the next instruction into it if it can. The first argument is an instruction
whose opcode has been written and may still take in the next one. -/
def greedy : Option α → List α → Nat
  | _, [] => 0
  | none, x :: l => 1 + c x + greedy (some x) l
  | some y, x :: l => if pair y x then c x + greedy none l else 1 + c x + greedy (some x) l

theorem greedy_open : ∀ (l : List α) (y : α), greedy pair c (some y) l ≤ greedy pair c none l ∧
    greedy pair c none l ≤ greedy pair c (some y) l + 1
  | [], _ => by simp [greedy]
  | x :: l, y => by
    have := greedy_open l x
    simp only [greedy]
    split <;> omega

theorem greedy_congr : ∀ (z : List (α × α)) (prev : Option (α × α)),
    (∀ front a b rest, prev.toList ++ z = front ++ a :: b :: rest → pair a.1 b.1 = pair a.2 b.2) →
    (∀ a ∈ z, c a.1 = c a.2) →
    greedy pair c (prev.map Prod.fst) (z.map Prod.fst) = greedy pair c (prev.map Prod.snd) (z.map Prod.snd)
  | [], prev, _, _ => by cases prev <;> simp [greedy]
  | x :: z, none, hp, hc => by
    have h1 := hc x (by simp)
    have h2 := greedy_congr z (some x) hp (fun a ha => hc a (by simp [ha]))
    simp only [Option.map_some] at h2
    simp only [Option.map_none, List.map_cons, greedy, h1, h2]
  | x :: z, some y, hp, hc => by
    have h1 := hc x (by simp)
    have h2 := greedy_congr z (some x) (fun front a b rest h => hp (y :: front) a b rest (by
      simp only [Option.toList_some, List.cons_append, List.nil_append] at h ⊢; rw [h])) (fun a ha => hc a (by simp [ha]))
    have h3 := greedy_congr z none (fun front a b rest h => hp (y :: x :: front) a b rest (by
      simp only [Option.toList_some, Option.toList_none, List.cons_append, List.nil_append] at h ⊢; rw [h])) (fun a ha => hc a (by simp [ha]))
    have h4 := hp [] y x z rfl
    simp only [Option.map_some, Option.map_none] at h2 h3
    simp only [Option.map_some, List.map_cons, greedy, h1, h2, h3, h4]

end Greedy

/-- Whether there is an opcode with the size of the instruction in it. -/
def implicit : Op → Bool
  | .add bs => 1 ≤ bs.length && bs.length ≤ 17
  | .run _ _ => false
  | .copy _ n => 4 ≤ n && n ≤ 18

/-- Whether there is an opcode for two instructions, given with their modes. -/
def pairs : Op × Nat → Op × Nat → Bool
  | (.add bs, _), (.copy _ n, m) => 1 ≤ bs.length && bs.length ≤ 4 && (n = 4 && m ≤ 8 || (n = 5 || n = 6) && m ≤ 5)
  | (.copy _ n, m), (.add bs, _) => n = 4 && m ≤ 8 && bs.length = 1
  | _, _ => false

/-- The bytes of a size operand. -/
def operand (x : Op × Nat) : Nat := if implicit x.1 then 0 else varintLength x.1.size

/-- The instruction type. -/
def opInst : Op → UInt8
  | .add _ => 1
  | .run _ _ => 2
  | .copy _ _ => 3

theorem pairs_implicit {x y : Op × Nat} (h : pairs x y = true) : implicit x.1 = true ∧ implicit y.1 = true := by
  obtain ⟨x, mx⟩ := x
  obtain ⟨y, my⟩ := y
  cases x <;> cases y <;> simp [pairs, implicit] at h ⊢ <;> omega

/-! ## The default code table -/

theorem default_opcodes (b : UInt8) :
    let h1 := defaultTable.first b
    let h2 := defaultTable.second b
    1 ≤ h1.inst.toNat ∧ h1.inst.toNat ≤ 3 ∧
    (h1.size.toNat ≠ 0 → h1.inst.toNat = 1 ∧ h1.size.toNat ≤ 17 ∨ h1.inst.toNat = 3 ∧ 4 ≤ h1.size.toNat ∧ h1.size.toNat ≤ 18) ∧
    (h2.inst.toNat = 0 ∨
      h1.inst.toNat = 1 ∧ 1 ≤ h1.size.toNat ∧ h1.size.toNat ≤ 4 ∧ h2.inst.toNat = 3 ∧
        (h2.size.toNat = 4 ∧ h2.mode.toNat ≤ 8 ∨ (h2.size.toNat = 5 ∨ h2.size.toNat = 6) ∧ h2.mode.toNat ≤ 5) ∨
      h1.inst.toNat = 3 ∧ h1.size.toNat = 4 ∧ h1.mode.toNat ≤ 8 ∧ h2.inst.toNat = 1 ∧ h2.size.toNat = 1) := by
  rw [default_first, default_second]
  revert b
  apply forall_byte; decide +kernel

theorem default_modes (b : UInt8) : (defaultTable.first b).mode.toNat ≤ 8 ∧ (defaultTable.second b).mode.toNat ≤ 8 := by
  rw [default_first, default_second]
  revert b
  apply forall_byte; decide +kernel

theorem default_single_add (n : Nat) (h : 1 ≤ n ∧ n ≤ 17) :
    defaultTable.first (UInt8.ofNat (n + 1)) = ⟨1, UInt8.ofNat n, 0⟩ ∧ (defaultTable.second (UInt8.ofNat (n + 1))).inst.toNat = 0 := by
  rw [default_first, default_second]
  have key : ∀ n, n < 18 → 1 ≤ n →
      (⟨unpack packedInst1 (UInt8.ofNat (n + 1)).toNat, unpack packedSize1 (UInt8.ofNat (n + 1)).toNat,
        unpack packedMode1 (UInt8.ofNat (n + 1)).toNat⟩ : Half) = ⟨1, UInt8.ofNat n, 0⟩ ∧
      (unpack packedInst2 (UInt8.ofNat (n + 1)).toNat).toNat = 0 := by decide +kernel
  exact key n (by omega) h.1

theorem default_single_copy (n m : Nat) (h : 4 ≤ n ∧ n ≤ 18) (hm : m ≤ 8) :
    defaultTable.first (UInt8.ofNat (16 + 16 * m + n)) = ⟨3, UInt8.ofNat n, UInt8.ofNat m⟩ ∧
      (defaultTable.second (UInt8.ofNat (16 + 16 * m + n))).inst.toNat = 0 := by
  rw [default_first, default_second]
  have key : ∀ n, n < 19 → 4 ≤ n → ∀ m, m < 9 →
      (⟨unpack packedInst1 (UInt8.ofNat (16 + 16 * m + n)).toNat, unpack packedSize1 (UInt8.ofNat (16 + 16 * m + n)).toNat,
        unpack packedMode1 (UInt8.ofNat (16 + 16 * m + n)).toNat⟩ : Half) = ⟨3, UInt8.ofNat n, UInt8.ofNat m⟩ ∧
      (unpack packedInst2 (UInt8.ofNat (16 + 16 * m + n)).toNat).toNat = 0 := by decide +kernel
  exact key n (by omega) h.1 m (by omega)

theorem default_add_copy (k n m : Nat) (hk : 1 ≤ k ∧ k ≤ 4) (h : n = 4 ∧ m ≤ 8 ∨ (n = 5 ∨ n = 6) ∧ m ≤ 5) :
    ∃ op, defaultTable.first op = ⟨1, UInt8.ofNat k, 0⟩ ∧ defaultTable.second op = ⟨3, UInt8.ofNat n, UInt8.ofNat m⟩ := by
  have key1 : ∀ k, k < 4 → ∀ n, n < 3 → ∀ m, m < 6 →
      (⟨unpack packedInst1 (UInt8.ofNat (163 + 12 * m + 3 * k + n)).toNat, unpack packedSize1 (UInt8.ofNat (163 + 12 * m + 3 * k + n)).toNat,
        unpack packedMode1 (UInt8.ofNat (163 + 12 * m + 3 * k + n)).toNat⟩ : Half) = ⟨1, UInt8.ofNat (k + 1), 0⟩ ∧
      (⟨unpack packedInst2 (UInt8.ofNat (163 + 12 * m + 3 * k + n)).toNat, unpack packedSize2 (UInt8.ofNat (163 + 12 * m + 3 * k + n)).toNat,
        unpack packedMode2 (UInt8.ofNat (163 + 12 * m + 3 * k + n)).toNat⟩ : Half) = ⟨3, UInt8.ofNat (n + 4), UInt8.ofNat m⟩ := by decide +kernel
  have key2 : ∀ k, k < 5 → 1 ≤ k → ∀ m, m < 9 → 6 ≤ m →
      (⟨unpack packedInst1 (UInt8.ofNat (210 + 4 * m + k)).toNat, unpack packedSize1 (UInt8.ofNat (210 + 4 * m + k)).toNat,
        unpack packedMode1 (UInt8.ofNat (210 + 4 * m + k)).toNat⟩ : Half) = ⟨1, UInt8.ofNat k, 0⟩ ∧
      (⟨unpack packedInst2 (UInt8.ofNat (210 + 4 * m + k)).toNat, unpack packedSize2 (UInt8.ofNat (210 + 4 * m + k)).toNat,
        unpack packedMode2 (UInt8.ofNat (210 + 4 * m + k)).toNat⟩ : Half) = ⟨3, UInt8.ofNat 4, UInt8.ofNat m⟩ := by decide +kernel
  by_cases hm : m ≤ 5
  · obtain ⟨k, rfl⟩ : ∃ k', k = k' + 1 := ⟨k - 1, by omega⟩
    obtain ⟨n, rfl⟩ : ∃ n', n = n' + 4 := ⟨n - 4, by omega⟩
    refine ⟨UInt8.ofNat (163 + 12 * m + 3 * k + n), ?_⟩
    rw [default_first, default_second]
    exact key1 k (by omega) n (by omega) m (by omega)
  · refine ⟨UInt8.ofNat (210 + 4 * m + k), ?_⟩
    rw [default_first, default_second]
    have e : n = 4 := by omega
    rw [e]
    exact key2 k (by omega) hk.1 m (by omega) (by omega)

theorem default_copy_add (m : Nat) (h : m ≤ 8) :
    ∃ op, defaultTable.first op = ⟨3, 4, UInt8.ofNat m⟩ ∧ defaultTable.second op = ⟨1, 1, 0⟩ := by
  have key : ∀ m, m < 9 →
      (⟨unpack packedInst1 (UInt8.ofNat (247 + m)).toNat, unpack packedSize1 (UInt8.ofNat (247 + m)).toNat,
        unpack packedMode1 (UInt8.ofNat (247 + m)).toNat⟩ : Half) = ⟨3, 4, UInt8.ofNat m⟩ ∧
      (⟨unpack packedInst2 (UInt8.ofNat (247 + m)).toNat, unpack packedSize2 (UInt8.ofNat (247 + m)).toNat,
        unpack packedMode2 (UInt8.ofNat (247 + m)).toNat⟩ : Half) = ⟨1, 1, 0⟩ := by decide +kernel
  refine ⟨UInt8.ofNat (247 + m), ?_⟩
  rw [default_first, default_second]
  exact key m (by omega)

/-! ## A lower bound -/

theorem varintLength_le {n : Nat} {bs : Bytes} (h : IsVarint bs) (hv : n ≤ varintValue bs) : varintLength n ≤ bs.length := by
  obtain ⟨k, k1, k2, k3, k4, k5⟩ := varintLengthLoop_spec (n + 1) n 0 (by omega)
  have hne : bs ≠ [] := isVarint_ne_nil h
  have hpos : 0 < bs.length := List.length_pos_iff.2 hne
  have e : varintLength n = k := by
    simp only [varintLength]
    rw [if_neg (by omega)]
    simp only [Int.toNat_natCast]
    rw [k1, Nat.zero_add]
  rw [e]
  by_cases h0 : n = 0
  · rw [k5 h0]; omega
  · have h1 := k4 h0
    have h2 := varintValue_lt bs
    have : k - 1 < bs.length := (Nat.pow_lt_pow_iff_right (a := 128) (by decide)).1 (by omega)
    omega

/-- The least number of bytes for the address of a COPY. -/
def addrLen (hist : List Nat) (here a : Nat) : Nat :=
  match (AddrCache.ofHist 4 3 hist).encodeAddress a here with
  | .ok mode enc c => ((c.addressBytes mode enc).map List.length).getD 0
  | .fault _ => 0

/-- The same for a list of instructions. -/
def addrLens (hist : List Nat) (here : Nat) : List Op → Nat
  | [] => 0
  | o :: ops => (match o with | .copy a _ => addrLen hist here a | _ => 0) + addrLens (hist ++ o.addrs) (here + o.size) ops

/-- The bytes in the data section. -/
def dataLen : Op → Nat
  | .add bs => bs.length
  | .run _ _ => 1
  | .copy _ _ => 0

def dataLens (ops : List Op) : Nat := (ops.map dataLen).sum

theorem addrLen_le {hist : List Nat} {here a mode : Nat} {bs : Bytes} (ha : a < here) (hh : here ≤ int32Max)
    (h : AddrCode 4 3 hist here mode bs a) : addrLen hist here a ≤ bs.length := by
  obtain ⟨m, enc, bs', a1, a2, a3, a4, a5, a6, a7⟩ := AddrCache.encode_is_AddrCode 4 3 hist (by decide) (by decide) a here ha hh
  simp only [addrLen, a1, a2, Option.map_some, Option.getD_some]
  exact a7 _ _ h

/-- What one half of an opcode costs. -/
theorem half_least {hist : List Nat} {here : Nat} {h : Half} {is : List Item} {os : List Op}
    (hc : HalfCode defaultCoding hist here h is os)
    (hs : h.size.toNat ≠ 0 → h.inst.toNat = 1 ∧ h.size.toNat ≤ 17 ∨ h.inst.toNat = 3 ∧ 4 ≤ h.size.toNat ∧ h.size.toNat ≤ 18) :
    copyModes defaultTable is = [] ∧ ((h.inst.toNat = 0 ∧ is = [] ∧ os = []) ∨
    (h.inst.toNat ≠ 0 ∧ ∃ o, os = [o] ∧ (opInst o).toNat = h.inst.toNat ∧ (h.size.toNat ≠ 0 → o.size = h.size.toNat) ∧
      operand (o, h.mode.toNat) ≤ (is.flatMap Item.inst).length ∧
      (is.flatMap Item.dataBytes).length = dataLen o ∧ addrLens hist here [o] ≤ (is.flatMap Item.addr).length)) := by
  have size : ∀ {sb : Bytes} {o : Op}, (opInst o).toNat = h.inst.toNat → SizeCode h sb o.size →
      (h.size.toNat ≠ 0 → o.size = h.size.toNat) ∧ operand (o, h.mode.toNat) ≤ sb.length := by
    intro sb o ho hsc
    rcases hsc with ⟨z, v1, v2, v3⟩ | ⟨z, rfl, e⟩
    · refine ⟨fun hn => absurd (by rw [z]; rfl) hn, ?_⟩
      unfold operand
      split
      · omega
      · exact varintLength_le v1 (by simp only; omega)
    · refine ⟨fun _ => e, ?_⟩
      have hz : h.size.toNat ≠ 0 := fun hz => z (UInt8.toNat_inj.1 (by simpa using hz))
      have : implicit o = true := by
        have hs' := hs hz
        cases o with
        | add bs => simp [opInst] at ho; simp [Op.size] at e; simp [implicit]; omega
        | run b n => simp [opInst] at ho; omega
        | copy a n => simp [opInst] at ho; simp [Op.size] at e; simp [implicit]; omega
      simp [operand, this]
  cases hc with
  | noop h0 => exact ⟨rfl, Or.inl ⟨h0, rfl, rfl⟩⟩
  | @add sb bs hi hsc =>
    obtain ⟨s1, s2⟩ := size (o := .add bs) (by simp [opInst, hi]) hsc
    refine ⟨rfl, Or.inr ⟨by omega, _, rfl, by simp [opInst, hi], s1, ?_, ?_, ?_⟩⟩
    · simpa [Item.inst] using s2
    · simp [Item.dataBytes, dataLen]
    · simp [addrLens]
  | @run sb n b hi hsc =>
    obtain ⟨s1, s2⟩ := size (o := .run b n) (by simp [opInst, hi]) hsc
    refine ⟨rfl, Or.inr ⟨by omega, _, rfl, by simp [opInst, hi], s1, ?_, ?_, ?_⟩⟩
    · simpa [Item.inst] using s2
    · simp [Item.dataBytes, dataLen]
    · simp [addrLens]
  | @copy sb n bs a hi hsc hac ha hh =>
    obtain ⟨s1, s2⟩ := size (o := .copy a n) (by simp [opInst, hi]) hsc
    refine ⟨rfl, Or.inr ⟨by omega, _, rfl, by simp [opInst, hi], s1, ?_, ?_, ?_⟩⟩
    · simpa [Item.inst] using s2
    · simp [Item.dataBytes, dataLen]
    · have := addrLen_le ha hh hac
      simp only [addrLens, Item.addr, List.flatMap_cons, List.flatMap_nil, List.append_nil, List.nil_append]
      omega

theorem addrLens_append (hist : List Nat) (here : Nat) (a b : List Op) :
    addrLens hist here (a ++ b) = addrLens hist here a + addrLens (hist ++ addrs a) (here + sizes a) b := by
  induction a generalizing hist here with
  | nil => simp [addrLens, addrs, sizes]
  | cons o a ih =>
    simp only [List.cons_append, addrLens, ih]
    have e1 : hist ++ o.addrs ++ addrs a = hist ++ addrs (o :: a) := by simp [addrs]
    have e2 : here + o.size + sizes a = here + sizes (o :: a) := by simp [sizes]; omega
    rw [e1, e2]; omega

theorem dataLens_append (a b : List Op) : dataLens (a ++ b) = dataLens a + dataLens b := by simp [dataLens]

theorem copyMode_elem {h : Half} {o : Op} (ho : (opInst o).toNat = h.inst.toNat) :
    copyMode h = elemMode (o, h.mode.toNat) := by
  cases o <;> simp [opInst] at ho <;> simp [copyMode, elemMode, ← ho]

/-- No list of items for the instructions `ops` is shorter. -/
theorem program_least {tol : Tolerance} (ht : tol.dangling = false) {hist : List Nat} {here : Nat} {items : List Item} {ops : List Op}
    (h : Program defaultCoding tol hist here items ops) :
    ∃ l : List (Op × Nat), l.map Prod.fst = ops ∧ (∀ x ∈ l, x.2 ≤ 8) ∧ copyModes defaultTable items = l.flatMap elemMode ∧
      greedy pairs operand none l ≤ (items.flatMap Item.inst).length ∧
      (items.flatMap Item.dataBytes).length = dataLens ops ∧ addrLens hist here ops ≤ (items.flatMap Item.addr).length := by
  induction h with
  | nil => exact ⟨[], rfl, by simp, rfl, by simp [greedy], rfl, by simp [addrLens]⟩
  | dangling hd => rw [ht] at hd; cases hd
  | @cons hist here op i1 o1 i2 o2 items ops c1 c2 hp ih =>
    obtain ⟨l, l1, l6, l2, l3, l4, l5⟩ := ih
    obtain ⟨t1, t2, t3, t4⟩ := default_opcodes op
    replace c1 : HalfCode defaultCoding hist here (defaultTable.first op) i1 o1 := c1
    replace c2 : HalfCode defaultCoding (hist ++ addrs o1) (here + sizes o1) (defaultTable.second op) i2 o2 := c2
    obtain ⟨m1, r1⟩ := half_least c1 t3
    obtain ⟨h1, x, rfl, x1, x2, x3, x4, x5⟩ := r1.resolve_left (fun hz => by
      have := hz.1
      omega)
    clear r1
    obtain ⟨m2, r2⟩ := half_least c2 (fun hz => by
      rcases t4 with h0 | h0 | h0
      · have key : ∀ b : UInt8, (defaultTable.second b).inst.toNat = 0 → (defaultTable.second b).size.toNat = 0 := by
          intro b
          rw [default_second]
          revert b
          apply forall_byte; decide +kernel
        exact absurd (key op h0) hz
      · omega
      · omega)
    have hmodes : copyModes defaultTable (.opcode op :: (i1 ++ i2 ++ items)) =
        copyMode (defaultTable.first op) ++ copyMode (defaultTable.second op) ++ copyModes defaultTable items := by
      have : copyModes defaultTable (.opcode op :: (i1 ++ i2 ++ items)) =
          (copyMode (defaultTable.first op) ++ copyMode (defaultTable.second op)) ++ copyModes defaultTable (i1 ++ i2 ++ items) := rfl
      rw [this, copyModes_append, copyModes_append, m1, m2]
      rfl
    rcases r2 with ⟨z, rfl, rfl⟩ | ⟨z, y, rfl, y1, y2, y3, y4, y5⟩
    · refine ⟨(x, (defaultTable.first op).mode.toNat) :: l, by simp [l1], ?_, ?_, ?_, ?_, ?_⟩
      · rintro x (_ | ⟨_, hx⟩)
        · exact (default_modes op).1
        · exact l6 x hx
      · rw [hmodes, l2]
        have : copyMode (defaultTable.second op) = [] := by
          simp [copyMode, z]
        rw [this, copyMode_elem x1]
        simp
      · have hg := (greedy_open pairs operand l (x, (defaultTable.first op).mode.toNat)).1
        simp only [greedy, List.flatMap_cons, List.flatMap_append, List.length_append, Item.inst,
          List.length_nil, List.append_nil, List.length_cons]
        omega
      · rw [dataLens_append, dataLens_append]
        simp only [List.flatMap_cons, List.flatMap_append, List.length_append, Item.dataBytes,
          List.append_nil, List.nil_append, dataLens, List.map_cons, List.map_nil, List.sum_cons, List.sum_nil] at l4 ⊢
        omega
      · rw [addrLens_append, addrLens_append]
        simp only [List.flatMap_cons, List.flatMap_append, List.length_append, Item.addr,
          List.append_nil, List.nil_append] at l5 ⊢
        have e1 : addrs ([] : List Op) = [] := rfl
        have e2 : sizes ([] : List Op) = 0 := rfl
        simp only [e1, e2, List.append_nil, Nat.add_zero] at l5 ⊢
        simp only [addrLens] at *
        omega
    · refine ⟨(x, (defaultTable.first op).mode.toNat) :: (y, (defaultTable.second op).mode.toNat) :: l, by simp [l1], ?_, ?_, ?_, ?_, ?_⟩
      · rintro x (_ | ⟨_, _ | ⟨_, hx⟩⟩)
        · exact (default_modes op).1
        · exact (default_modes op).2
        · exact l6 x hx
      · rw [hmodes, l2, copyMode_elem x1, copyMode_elem y1]
        simp
      · have hp : pairs (x, (defaultTable.first op).mode.toNat) (y, (defaultTable.second op).mode.toNat) = true := by
          rcases t4 with h0 | ⟨q1, q2, q3, q4, q5⟩ | ⟨q1, q2, q3, q4, q5⟩
          · exact absurd h0 z
          · have s1 := x2 (by omega)
            have s2 := y2 (by omega)
            cases x <;> simp [opInst] at x1 <;> try omega
            cases y <;> simp [opInst] at y1 <;> try omega
            simp [Op.size] at s1 s2
            simp [pairs]
            omega
          · have s1 := x2 (by omega)
            have s2 := y2 (by omega)
            cases x <;> simp [opInst] at x1 <;> try omega
            cases y <;> simp [opInst] at y1 <;> try omega
            simp [Op.size] at s1 s2
            simp [pairs]
            omega
        simp only [greedy, if_pos hp, List.flatMap_cons, List.flatMap_append, List.length_append, Item.inst,
          List.length_cons, List.length_nil]
        omega
      · rw [dataLens_append, dataLens_append]
        simp only [List.flatMap_cons, List.flatMap_append, List.length_append, Item.dataBytes, List.length_nil,
          dataLens, List.map_cons, List.map_nil, List.sum_cons, List.sum_nil] at l4 ⊢
        omega
      · rw [addrLens_append, addrLens_append]
        simp only [List.flatMap_cons, List.flatMap_append, List.length_append, Item.addr, List.length_nil] at l5 ⊢
        simp only [addrs_append, sizes_append, ← List.append_assoc, ← Nat.add_assoc] at l5 ⊢
        simp only [addrLens] at *
        omega

/-! ## The writer reaches it -/

variable {m : InstructionMap}

/-- The instruction as it stands in an opcode of its own. -/
def halfOf (o : Op) (mode : Nat) : Half := ⟨opInst o, if implicit o then UInt8.ofNat o.size else 0, UInt8.ofNat mode⟩

theorem implicit_size {o : Op} (h : implicit o = true) : 1 ≤ o.size ∧ o.size ≤ 18 := by
  cases o <;> simp [implicit, Op.size] at h ⊢ <;> omega

theorem halfOf_ok {o : Op} {mode : Nat} (hk : Known 8 (opInst o) mode) :
    HalfOk 8 (halfOf o mode) ∧ (halfOf o mode).inst ≠ vcdNoop ∧ (halfOf o mode).mode.toNat = mode := by
  obtain ⟨h1, h2, h3⟩ := half_ok hk (by decide) (if implicit o then UInt8.ofNat o.size else 0)
  exact ⟨h1, h3, h2⟩

theorem implicit_single {o : Op} {mode : Nat} (hk : Known 8 (opInst o) mode) (hi : implicit o = true) :
    ∃ op, IsSingle defaultTable op ⟨opInst o, UInt8.ofNat o.size, UInt8.ofNat mode⟩ := by
  obtain ⟨k1, k2, k3, k4⟩ := hk
  cases o with
  | add bs =>
    have h0 : mode = 0 := k4 (by simp [opInst])
    obtain ⟨t1, t2⟩ := default_single_add bs.length (by simpa [implicit] using hi)
    exact ⟨_, Or.inl ⟨by rw [t1, h0]; rfl, t2⟩⟩
  | run => simp [implicit] at hi
  | copy a n =>
    obtain ⟨t1, t2⟩ := default_single_copy n mode (by simpa [implicit] using hi) k3
    exact ⟨_, Or.inl ⟨by rw [t1]; rfl, t2⟩⟩

theorem single_implicit {o : Op} {mode : Nat} {op : UInt8} (hs : 0 < o.size) (h255 : o.size ≤ 255)
    (h : IsSingle defaultTable op ⟨opInst o, UInt8.ofNat o.size, UInt8.ofNat mode⟩) : implicit o = true := by
  obtain ⟨t1, t2, t3, t4⟩ := default_opcodes op
  rcases h with ⟨e1, e2⟩ | ⟨e1, e2, e3⟩
  · have e : (UInt8.ofNat o.size).toNat = o.size := by rw [UInt8.toNat_ofNat']; omega
    have t3' : (defaultTable.first op).size.toNat ≠ 0 → (defaultTable.first op).inst.toNat = 1 ∧ (defaultTable.first op).size.toNat ≤ 17 ∨
      (defaultTable.first op).inst.toNat = 3 ∧ 4 ≤ (defaultTable.first op).size.toNat ∧ (defaultTable.first op).size.toNat ≤ 18 := t3
    rw [e1] at t3'
    simp only [e] at t3'
    have := t3' (by omega)
    cases o <;> simp [opInst, Op.size, implicit] at * <;> omega
  · omega

theorem lookupFirst_exact (u : Usable defaultCoding 8 m) {o : Op} {mode : Nat} (hk : Known 8 (opInst o) mode) (hs : 0 < o.size)
    (hs2 : o.size ≤ int32Max) :
    ∃ op sb, lookupFirst m (opInst o) o.size mode = .ok (op, !implicit o) ∧ sizeOperand (!implicit o) o.size = .ok sb ∧
      sb.length = operand (o, mode) ∧
      m.firstMap.lookup (halfOf o mode).inst (halfOf o mode).size.toNat (halfOf o mode).mode.toNat = .found (some op) := by
  have hmode := (half_ok hk (by decide) 0).2.1
  obtain ⟨op', ex, sb', h', a1, a2, _, _, a5, a6, _, _, a9, a10⟩ := lookupFirst_ok u hk hs hs2
  by_cases hi : implicit o = true
  · have hsz := implicit_size hi
    have e : (UInt8.ofNat o.size).toNat = o.size := by rw [UInt8.toNat_ofNat']; omega
    obtain ⟨r, r1, r2, r3⟩ := lookupFirst_spec u.valid u.map ⟨opInst o, UInt8.ofNat o.size, UInt8.ofNat mode⟩
      (half_ok hk (by decide) _).1
    simp only [e, hmode] at r1
    cases r with
    | none =>
      obtain ⟨op, hop⟩ := implicit_single hk hi
      exact absurd hop (r3 rfl op)
    | some op =>
      refine ⟨op, [], ?_, ?_, ?_, ?_⟩
      · simp only [lookupFirst, if_pos (show o.size ≤ 255 by omega), r1, hi, Bool.not_true]
      · simp [sizeOperand, hi]
      · simp [operand, hi]
      · simp only [halfOf, hi, if_true, e, hmode]
        exact r1
  · have hi' : implicit o = false := by simpa using hi
    have hn : (if o.size ≤ 255 then m.firstMap.lookup (opInst o) o.size mode else .found none) = .found none := by
      split
      · rename_i h255
        have e : (UInt8.ofNat o.size).toNat = o.size := by rw [UInt8.toNat_ofNat']; omega
        obtain ⟨r, r1, r2, r3⟩ := lookupFirst_spec u.valid u.map ⟨opInst o, UInt8.ofNat o.size, UInt8.ofNat mode⟩
          (half_ok hk (by decide) _).1
        simp only [e, hmode] at r1
        cases r with
        | none => exact r1
        | some op => exact absurd (single_implicit hs h255 (r2 op rfl).1) hi
      · rfl
    obtain ⟨sb, b1, b2, b3, b4⟩ := sizeBytes_spec hs2
    simp only [lookupFirst, hn] at a1 ⊢
    cases hl : m.firstMap.lookup (opInst o) 0 mode with
    | fault => rw [hl] at a1; cases a1
    | found r =>
      cases r with
      | none => rw [hl] at a1; cases a1
      | some op =>
        refine ⟨op, sb, by simp [hi'], ?_, ?_, ?_⟩
        · simp [sizeOperand, hi', b1]
        · simp only [operand, hi', Bool.false_eq_true, if_false, ← b4, sizeLength, toInt32_eq hs2]
        · simp only [halfOf, hi', Bool.false_eq_true, if_false, hmode]
          exact hl

theorem lookupSecond_exact (u : Usable defaultCoding 8 m) {p o : Op} {pm mode : Nat} (hkp : Known 8 (opInst p) pm)
    (hk : Known 8 (opInst o) mode) (hs : 0 < o.size) {op1 : UInt8}
    (hop : m.firstMap.lookup (halfOf p pm).inst (halfOf p pm).size.toNat (halfOf p pm).mode.toNat = .found (some op1)) :
    (pairs (p, pm) (o, mode) = true ∧ ∃ op, lookupSecond m op1 (opInst o) o.size mode = .ok (some (op, false))) ∨
    (pairs (p, pm) (o, mode) = false ∧ lookupSecond m op1 (opInst o) o.size mode = .ok none) := by
  obtain ⟨q1, q2, q3⟩ := halfOf_ok hkp
  obtain ⟨_, hmode, hne⟩ := half_ok hk (by decide) 0
  -- what a double opcode tells
  have sound : ∀ (op size : UInt8), defaultTable.first op = halfOf p pm → defaultTable.second op = ⟨opInst o, size, UInt8.ofNat mode⟩ →
      (size = UInt8.ofNat o.size ∧ o.size ≤ 255 ∨ size = 0) → pairs (p, pm) (o, mode) = true := by
    intro op size e1 e2 hsize
    obtain ⟨_, _, _, t4⟩ := default_opcodes op
    have t4' : (defaultTable.second op).inst.toNat = 0 ∨
        (defaultTable.first op).inst.toNat = 1 ∧ 1 ≤ (defaultTable.first op).size.toNat ∧ (defaultTable.first op).size.toNat ≤ 4 ∧
          (defaultTable.second op).inst.toNat = 3 ∧ ((defaultTable.second op).size.toNat = 4 ∧ (defaultTable.second op).mode.toNat ≤ 8 ∨
          ((defaultTable.second op).size.toNat = 5 ∨ (defaultTable.second op).size.toNat = 6) ∧ (defaultTable.second op).mode.toNat ≤ 5) ∨
        (defaultTable.first op).inst.toNat = 3 ∧ (defaultTable.first op).size.toNat = 4 ∧ (defaultTable.first op).mode.toNat ≤ 8 ∧
          (defaultTable.second op).inst.toNat = 1 ∧ (defaultTable.second op).size.toNat = 1 := t4
    rw [e1, e2] at t4'
    simp only [hmode, q3] at t4'
    have hinst : (halfOf p pm).inst = opInst p := rfl
    rw [hinst] at t4'
    have hp : (halfOf p pm).size.toNat ≠ 0 → implicit p = true ∧ (halfOf p pm).size.toNat = p.size := by
      intro hz
      by_cases hi : implicit p = true
      · refine ⟨hi, ?_⟩
        have := implicit_size hi
        simp only [halfOf, hi, if_true]
        rw [UInt8.toNat_ofNat']; omega
      · exfalso; apply hz; simp [halfOf, hi]
    have ho : size.toNat ≠ 0 → size.toNat = o.size := by
      intro hz
      rcases hsize with ⟨rfl, h255⟩ | rfl
      · rw [UInt8.toNat_ofNat']; omega
      · exact absurd rfl hz
    have k1 := hk.1
    rcases t4' with h0 | ⟨a1, a2, a3, a4, a5⟩ | ⟨a1, a2, a3, a4, a5⟩
    · omega
    · obtain ⟨_, b1⟩ := hp (by omega)
      have b2 := ho (by omega)
      cases p <;> simp [opInst] at a1
      cases o <;> simp [opInst] at a4
      simp only [Op.size] at b1 b2
      simp [pairs]
      omega
    · obtain ⟨_, b1⟩ := hp (by omega)
      have b2 := ho (by omega)
      cases p <;> simp [opInst] at a1
      cases o <;> simp [opInst] at a4
      simp only [Op.size] at b1 b2
      simp [pairs]
      omega
  by_cases hp : pairs (p, pm) (o, mode) = true
  · left
    refine ⟨hp, ?_⟩
    obtain ⟨hi1, hi2⟩ := pairs_implicit hp
    have s2 : 1 ≤ o.size ∧ o.size ≤ 18 := implicit_size hi2
    have e : (UInt8.ofNat o.size).toNat = o.size := by rw [UInt8.toNat_ofNat']; omega
    have hex : ∃ op, defaultTable.first op = halfOf p pm ∧ defaultTable.second op = ⟨opInst o, UInt8.ofNat o.size, UInt8.ofNat mode⟩ := by
      have hi1' : implicit p = true := hi1
      simp only [halfOf, hi1', if_true]
      cases p with
      | run => simp [pairs] at hp
      | add bs =>
        cases o with
        | add | run => simp [pairs] at hp
        | copy a n =>
          have h0 : pm = 0 := hkp.2.2.2 (by simp [opInst])
          obtain ⟨op, t1, t2⟩ := default_add_copy bs.length n mode (by simp [pairs] at hp; omega) (by simp [pairs] at hp; omega)
          exact ⟨op, by rw [t1, h0]; rfl, by rw [t2]; rfl⟩
      | copy a n =>
        cases o with
        | copy | run => simp [pairs] at hp
        | add bs =>
          simp [pairs] at hp
          have h0 : mode = 0 := hk.2.2.2 (by simp [opInst])
          obtain ⟨op, t1, t2⟩ := default_copy_add pm (by omega)
          exact ⟨op, by rw [t1]; simp [Op.size, hp, opInst], by rw [t2, h0]; simp [Op.size, hp, opInst]⟩
    obtain ⟨r, r1, r2, r3⟩ := lookupSecond_spec u.valid u.map (halfOf p pm) q1 q2 op1 hop
      ⟨opInst o, UInt8.ofNat o.size, UInt8.ofNat mode⟩ (half_ok hk (by decide) _).1 hne
    simp only [e, hmode] at r1
    cases r with
    | none =>
      obtain ⟨op, t1, t2⟩ := hex
      exact absurd ⟨t1, t2⟩ (r3 rfl op)
    | some op =>
      refine ⟨op, ?_⟩
      simp only [lookupSecond, if_pos (show o.size ≤ 255 by omega), r1]
  · right
    refine ⟨by simpa using hp, ?_⟩
    have hn : (if o.size ≤ 255 then m.secondMap.lookup op1 (opInst o) o.size mode else .found none) = .found none := by
      split
      · rename_i h255
        have e : (UInt8.ofNat o.size).toNat = o.size := by rw [UInt8.toNat_ofNat']; omega
        obtain ⟨r, r1, r2, r3⟩ := lookupSecond_spec u.valid u.map (halfOf p pm) q1 q2 op1 hop
          ⟨opInst o, UInt8.ofNat o.size, UInt8.ofNat mode⟩ (half_ok hk (by decide) _).1 hne
        simp only [e, hmode] at r1
        cases r with
        | none => exact r1
        | some op => exact absurd (sound op _ (r2 op rfl).1 (r2 op rfl).2 (Or.inl ⟨rfl, h255⟩)) hp
      · rfl
    obtain ⟨r, r1, r2, r3⟩ := lookupSecond_spec u.valid u.map (halfOf p pm) q1 q2 op1 hop
      ⟨opInst o, 0, UInt8.ofNat mode⟩ (half_ok hk (by decide) _).1 hne
    simp only [hmode] at r1
    replace r1 : m.secondMap.lookup op1 (opInst o) 0 mode = .found r := r1
    cases r with
    | none => simp only [lookupSecond, hn, r1]
    | some op => exact absurd (sound op _ (r2 op rfl).1 (r2 op rfl).2 (Or.inr rfl)) hp

/-- The opcode that may still take in the next instruction. -/
def Open (m : InstructionMap) (w : Writer) : Option (Op × Nat) → Prop
  | none => w.lastOpcode = none
  | some (o, mode) => ∃ i op, w.lastOpcode = some i ∧ w.inst[i]? = some op ∧ Known 8 (opInst o) mode ∧
      m.firstMap.lookup (halfOf o mode).inst (halfOf o mode).size.toNat (halfOf o mode).mode.toNat = .found (some op)

theorem Open.append {w w' : Writer} {prev : Option (Op × Nat)} {bs : Bytes} (h : Open m w prev) (h1 : w'.lastOpcode = w.lastOpcode)
    (h2 : w'.inst = w.inst ++ bs) : Open m w' prev := by
  cases prev with
  | none => exact h1.trans h
  | some x =>
    obtain ⟨o, mode⟩ := x
    obtain ⟨i, op, a1, a2, a3, a4⟩ := h
    refine ⟨i, op, h1.trans a1, ?_, a3, a4⟩
    rw [h2, List.getElem?_append_left]
    · exact a2
    · exact (List.getElem?_eq_some_iff.1 a2).1

theorem encodeInstruction_least (u : Usable defaultCoding 8 m) {w : Writer} (hm : w.map = some m) {prev : Option (Op × Nat)}
    (hop : Open m w prev) {o : Op} {mode : Nat} (hk : Known 8 (opInst o) mode) (hs : 0 < o.size) (hs2 : o.size ≤ int32Max) :
    ∃ inst' last' next, w.encodeInstruction (opInst o) o.size mode = .ok { w with inst := inst', lastOpcode := last' } ∧
      Open m { w with inst := inst', lastOpcode := last' } next ∧
      ∀ l, w.inst.length + greedy pairs operand prev ((o, mode) :: l) = inst'.length + greedy pairs operand next l := by
  obtain ⟨op, sb, a1, a2, a3, a4⟩ := lookupFirst_exact u hk hs hs2
  have fresh : w.compound m (opInst o) o.size mode = .ok none →
      ∃ inst' last', w.encodeInstruction (opInst o) o.size mode = .ok { w with inst := inst', lastOpcode := last' } ∧
        Open m { w with inst := inst', lastOpcode := last' } (some (o, mode)) ∧
        inst'.length = w.inst.length + 1 + operand (o, mode) := by
    intro hc
    refine ⟨w.inst ++ [op] ++ sb, some w.inst.length, ?_, ⟨w.inst.length, op, rfl, by simp, hk, a4⟩, by simp [a3]; omega⟩
    simp only [encodeInstruction, hm, hc, a1, a2, Except.map]
  cases prev with
  | none =>
    have hl : w.lastOpcode = none := hop
    obtain ⟨inst', last', f1, f2, f3⟩ := fresh (by simp only [compound, hl])
    exact ⟨inst', last', _, f1, f2, fun l => by simp only [greedy]; omega⟩
  | some y =>
    obtain ⟨p, pm⟩ := y
    obtain ⟨i, op1, b1, b2, b3, b4⟩ := hop
    rcases lookupSecond_exact u b3 hk hs b4 with ⟨hp, op2, e⟩ | ⟨hp, e⟩
    · refine ⟨w.inst.set i op2 ++ [], none, none, ?_, rfl, fun l => ?_⟩
      · simp only [encodeInstruction, hm, compound, b1, b2, e, sizeOperand, Bool.false_eq_true, if_false, Except.map]
      · have : operand (o, mode) = 0 := by simp [operand, (pairs_implicit hp).2]
        simp only [greedy, if_pos hp, this]
        simp
    · obtain ⟨inst', last', f1, f2, f3⟩ := fresh (by simp only [compound, b1, b2, e])
      refine ⟨inst', last', _, f1, f2, fun l => ?_⟩
      simp only [greedy, hp, Bool.false_eq_true, if_false]
      omega

theorem greedy_nil (prev : Option (Op × Nat)) : greedy pairs operand prev [] = 0 := by cases prev <;> simp [greedy]

/-- One call. -/
theorem call_least (u : Usable defaultCoding 8 m) {d : Nat} {w : Writer} {items : List Item} {done : List Op}
    (hi : Inv defaultCoding 8 m d w done items) {prev : Option (Op × Nat)} (hop : Open m w prev) {o : Op}
    (hw : Writable (d + sizes done) o) :
    ∃ w' next, w.call o.call = .ok ([], w') ∧ Open m w' next ∧
      (∀ l, w.inst.length + (if w.interleaved then dataLen o + addrLens (addrs done) (d + sizes done) [o] else 0) +
        greedy pairs operand prev (elemsOf defaultCoding (addrs done) (d + sizes done) [o] ++ l) =
        w'.inst.length + greedy pairs operand next l) ∧
      w'.addr.length = w.addr.length + if w.interleaved then 0 else addrLens (addrs done) (d + sizes done) [o] := by
  obtain ⟨hs, hs2, hcopy⟩ := hw
  cases o with
  | add bytes =>
    obtain ⟨inst', last', next, e1, e2, e3⟩ := encodeInstruction_least u hi.map hop (o := .add bytes) (mode := 0)
      ⟨by simp [opInst], by simp [opInst], by omega, fun _ => rfl⟩ hs hs2
    have e1' : w.encodeInstruction vcdAdd bytes.length 0 = .ok { w with inst := inst', lastOpcode := last' } := e1
    refine ⟨(({ w with inst := inst', lastOpcode := last' } : Writer).appendData bytes).advance bytes.length, next,
      by simp only [call, Op.call, add, e1', Except.map], ?_, fun l => ?_, ?_⟩
    · cases w.interleaved
      · exact e2.append (bs := []) (by simp [advance, appendData]) (by simp [advance, appendData])
      · exact e2.append (bs := bytes) (by simp [advance, appendData]) (by simp [advance, appendData])
    · have := e3 l
      cases w.interleaved <;>
        simp [advance, appendData, elemsOf, dataLen, addrLens] <;> omega
    · cases w.interleaved <;> simp [advance, appendData, addrLens]
  | run b n =>
    obtain ⟨inst', last', next, e1, e2, e3⟩ := encodeInstruction_least u hi.map hop (o := .run b n) (mode := 0)
      ⟨by simp [opInst], by simp [opInst], by omega, fun _ => rfl⟩ hs hs2
    have e1' : w.encodeInstruction vcdRun n 0 = .ok { w with inst := inst', lastOpcode := last' } := e1
    refine ⟨(({ w with inst := inst', lastOpcode := last' } : Writer).appendData [b]).advance n, next,
      by simp only [call, Op.call, run, e1', Except.map], ?_, fun l => ?_, ?_⟩
    · cases w.interleaved
      · exact e2.append (bs := []) (by simp [advance, appendData]) (by simp [advance, appendData])
      · exact e2.append (bs := [b]) (by simp [advance, appendData]) (by simp [advance, appendData])
    · have := e3 l
      cases w.interleaved <;>
        simp [advance, appendData, elemsOf, dataLen, addrLens] <;> omega
    · cases w.interleaved <;> simp [advance, appendData, addrLens]
  | copy a n =>
    obtain ⟨ha, hh⟩ := hcopy a n rfl
    obtain ⟨mode, enc, bs, a1, a2, a3, a4, a5, a6, _⟩ := AddrCache.encode_is_AddrCode 4 3 (addrs done)
      (by decide) (by decide) a (d + sizes done) ha hh
    obtain ⟨inst', last', next, e1, e2, e3⟩ := encodeInstruction_least u
      (w := { w with cache := AddrCache.ofHist 4 3 (addrs done ++ [a]) }) hi.map (prev := prev) (by
        cases prev with
        | none => exact hop
        | some x => exact hop) (o := .copy a n) (mode := mode)
      ⟨by simp [opInst], by simp [opInst], by omega, fun h => absurd rfl h⟩ hs hs2
    have hcache : w.cache.encodeAddress (a : Int) (toInt32 (w.dictionarySize + w.targetLength)) =
        .ok mode enc (AddrCache.ofHist 4 3 (addrs done ++ [a])) := by
      rw [hi.cache, hi.dict, hi.target, toInt32_eq hh]
      exact a1
    have hmode : modeOf defaultCoding (addrs done) (d + sizes done) a = mode := by
      unfold modeOf
      have : (AddrCache.ofHist defaultCoding.near defaultCoding.same (addrs done)).encodeAddress a (d + sizes done : Nat) =
        .ok mode enc (AddrCache.ofHist 4 3 (addrs done ++ [a])) := a1
      rw [this]
    have hlen : addrLen (addrs done) (d + sizes done) a = bs.length := by simp only [addrLen, a1, a2, Option.map_some, Option.getD_some]
    refine ⟨(({ w with cache := AddrCache.ofHist 4 3 (addrs done ++ [a]), inst := inst', lastOpcode := last' } : Writer).appendAddr
      bs).advance n, next, ?_, ?_, fun l => ?_, ?_⟩
    · have e1' : ({ w with cache := AddrCache.ofHist 4 3 (addrs done ++ [a]) } : Writer).encodeInstruction vcdCopy n mode =
        .ok { w with cache := AddrCache.ofHist 4 3 (addrs done ++ [a]), inst := inst', lastOpcode := last' } := e1
      simp only [hi.map] at e1'
      simp only [call, Op.call, copy, hi.map, hcache, Except.map, e1', a2]
    · cases w.interleaved
      · exact e2.append (bs := []) (by simp [advance, appendAddr]) (by simp [advance, appendAddr])
      · exact e2.append (bs := bs) (by simp [advance, appendAddr]) (by simp [advance, appendAddr])
    · have := e3 l
      simp only [elemsOf, hmode, addrLens, hlen, dataLen]
      cases w.interleaved <;>
        simp [advance, appendAddr] <;> simp at this <;> omega
    · simp only [addrLens, hlen]
      cases w.interleaved <;> simp [advance, appendAddr]

/-- Any number of calls. -/
theorem calls_least (u : Usable defaultCoding 8 m) {d : Nat} {w : Writer} {done todo : List Op} {items : List Item}
    (hi : Inv defaultCoding 8 m d w done items) {prev : Option (Op × Nat)} (hop : Open m w prev)
    (hw : WritableAll (d + sizes done) todo) (cs : List CoderCall) :
    ∃ w' items', w.calls (todo.map Op.call ++ cs) = w'.calls cs ∧ w'.interleaved = w.interleaved ∧
      w'.checksum = w.checksum ∧ w'.table = w.table ∧ w'.maxMode = w.maxMode ∧
      Inv defaultCoding 8 m d w' (done ++ todo) items' ∧
      w'.inst.length = w.inst.length +
        (if w.interleaved then dataLens todo + addrLens (addrs done) (d + sizes done) todo else 0) +
        greedy pairs operand prev (elemsOf defaultCoding (addrs done) (d + sizes done) todo) ∧
      w'.addr.length = w.addr.length + if w.interleaved then 0 else addrLens (addrs done) (d + sizes done) todo := by
  induction todo generalizing w done items prev with
  | nil => exact ⟨w, items, rfl, rfl, rfl, rfl, rfl, by simpa using hi, by simp [elemsOf, greedy_nil, dataLens, addrLens], by simp [addrLens]⟩
  | cons o ops ih =>
    obtain ⟨w1, k1, k2, k3, k4, k5, items1, k6⟩ := call_ok u hi hw.1
    obtain ⟨w1', next, n1, n2, n3, n4⟩ := call_least u hi hop hw.1
    have : w1' = w1 := by rw [k1] at n1; simpa using n1.symm
    subst this
    have e1 : sizes (done ++ [o]) = sizes done + o.size := by rw [sizes_append]; simp [sizes]
    have e2 : addrs (done ++ [o]) = addrs done ++ o.addrs := by rw [addrs_append]; simp [addrs]
    obtain ⟨w2, items2, j1, j2, j3, j4, j5, j6, j7, j8⟩ := ih k6 n2 (by
      have := hw.2
      rw [e1, ← Nat.add_assoc]
      exact this)
    rw [e1, e2, ← Nat.add_assoc, k2] at j7 j8
    refine ⟨w2, items2, ?_, j2.trans k2, j3.trans k3, j4.trans k4, j5.trans k5, by simpa using j6, ?_, ?_⟩
    · simp only [List.map_cons, List.cons_append, calls, k1, j1, Except.map, List.nil_append]
      cases w2.calls cs with
      | error => rfl
      | ok r => rfl
    · have h := n3 (elemsOf defaultCoding (addrs done ++ o.addrs) (d + sizes done + o.size) ops)
      simp only [elemsOf, List.cons_append, List.nil_append] at h ⊢
      simp only [dataLens, List.map_cons, List.sum_cons, addrLens] at h j7 ⊢
      cases hil : w.interleaved <;> simp only [hil, Bool.false_eq_true, if_false, if_true] at h j7 ⊢ <;> omega
    · simp only [addrLens] at n4 ⊢
      cases hil : w.interleaved <;> simp only [hil, Bool.false_eq_true, if_false, if_true] at n4 j8 ⊢ <;> omega

/-! ## Windows -/

/-- The bytes of a window with no field longer than it need be. -/
def windowLen (d t dl il al ck : Nat) : Nat :=
  let rest := varintLength t + 1 + varintLength dl + varintLength il + varintLength al + ck + (dl + il + al)
  1 + varintLength d + 1 + varintLength rest + rest

theorem varintLength_mono {a b : Nat} (h : a ≤ b) : varintLength a ≤ varintLength b := by
  obtain ⟨k, k1, k2, k3, k4, k5⟩ := varintLengthLoop_spec (a + 1) a 0 (by omega)
  obtain ⟨j, j1, j2, j3, j4, j5⟩ := varintLengthLoop_spec (b + 1) b 0 (by omega)
  simp only [varintLength]
  rw [if_neg (by omega), if_neg (by omega)]
  simp only [Int.toNat_natCast]
  rw [k1, j1, Nat.zero_add, Nat.zero_add]
  by_cases h0 : a = 0
  · have := k5 h0
    by_cases hb : b = 0
    · have := j5 hb; omega
    · omega
  · have h1 := k4 h0
    have : k - 1 < j := (Nat.pow_lt_pow_iff_right (a := 128) (by decide)).1 (by omega)
    omega

theorem windowLen_mono {d t dl il al ck dl' il' al' ck' : Nat} (h1 : dl ≤ dl') (h2 : il ≤ il') (h3 : al ≤ al') (h4 : ck ≤ ck') :
    windowLen d t dl il al ck ≤ windowLen d t dl' il' al' ck' := by
  have k1 := varintLength_mono h1
  have k2 := varintLength_mono h2
  have k3 := varintLength_mono h3
  simp only [windowLen]
  have := varintLength_mono (show varintLength t + 1 + varintLength dl + varintLength il + varintLength al + ck + (dl + il + al) ≤
    varintLength t + 1 + varintLength dl' + varintLength il' + varintLength al' + ck' + (dl' + il' + al') by omega)
  omega

/-- No window with given instructions is shorter. -/
theorem windowWith_least {d : Nat} {il : Bool} {checksum : Option Nat} {ops : List Op} {modes : List Nat} {W : Bytes}
    (h : WindowWith d il checksum ops modes W) :
    ∃ l : List (Op × Nat), l.map Prod.fst = ops ∧ (∀ x ∈ l, x.2 ≤ 8) ∧ modes = l.flatMap elemMode ∧
      windowLen d (sizes ops) (if il then 0 else dataLens ops)
        (greedy pairs operand none l + if il then dataLens ops + addrLens [] d ops else 0)
        (if il then 0 else addrLens [] d ops) (checksumLength checksum) ≤ W.length := by
  obtain ⟨R, items, data, inst, addr, h1, ⟨lb, pb, s1, s2, s3, s4⟩, h3, h4, h5, h6, h7, h8, h9, h10, h11, h12, h13⟩ := h
  obtain ⟨l, l1, l2, l3, l4, l5, l6⟩ := program_least rfl h3
  refine ⟨l, l1, l2, h4.symm.trans l3, ?_⟩
  have hck : checksumLength checksum ≤ R.cks.length := by
    cases checksum with
    | none => simp [checksumLength]
    | some v =>
      obtain ⟨k1, k2⟩ := h11
      exact varintLength_le k1 (by omega)
  have hpb : 0 < pb.length := List.length_pos_iff.2 (isVarint_ne_nil s4)
  have key : windowLen d (sizes ops) data.length inst.length addr.length R.cks.length ≤ W.length := by
    have hW := congrArg List.length R.bytes
    rw [s1] at hW
    rw [hW]
    clear hW
    have v1 := varintLength_le (n := d) s2 (by omega)
    have v2 := varintLength_le (n := sizes ops) R.htlen (by omega)
    have v3 := varintLength_le (n := data.length) R.hdlen (by omega)
    have v4 := varintLength_le (n := inst.length) R.hilen (by omega)
    have v5 := varintLength_le (n := addr.length) R.halen (by omega)
    have hb : R.body.length = data.length + inst.length + addr.length := by rw [h5]; simp; omega
    have v6 := varintLength_le (n := varintLength (sizes ops) + 1 + varintLength data.length + varintLength inst.length +
      varintLength addr.length + R.cks.length + (data.length + inst.length + addr.length)) R.hdl (by
        rw [h13]; simp only [List.length_append, List.length_cons, List.length_nil]; omega)
    simp only [windowLen, List.length_append, List.length_cons, List.length_nil]
    omega
  refine Nat.le_trans (windowLen_mono ?_ ?_ ?_ hck) key
  all_goals
    cases il
    · simp only [Bool.false_eq_true, if_false] at h6 ⊢
      obtain ⟨rfl, rfl, rfl⟩ := h6
      omega
    · simp only [if_true] at h6 ⊢
      obtain ⟨rfl, rfl, rfl⟩ := h6
      have hlens : ∀ l : List Item, (l.flatMap Item.inst).length + (l.flatMap Item.dataBytes).length +
          (l.flatMap Item.addr).length = (l.flatMap Item.bytes).length := by
        intro l
        induction l with
        | nil => rfl
        | cons a l ih =>
          simp only [List.flatMap_cons, List.length_append]
          cases a <;> simp only [Item.inst, Item.dataBytes, Item.addr, Item.bytes, List.length_nil] <;> omega
      have := hlens items
      omega

theorem program_rfc {c : Coding} {hist : List Nat} {here : Nat} {items : List Item} {ops : List Op}
    (h : Program c strict hist here items ops) : Program c rfc hist here items ops := by
  induction h with
  | nil => exact .nil
  | cons h1 h2 _ ih => exact .cons h1 h2 ih
  | dangling h => cases h

/-- The window that is put together. -/
theorem windowBytes_exact {d : Nat} {w : Writer} {ops : List Op} {items : List Item} (hi : Inv defaultCoding 8 m d w ops items)
    (hne : ops ≠ []) (hsize : d + sizes ops ≤ int32Max) (hcost : costs ops + 26 ≤ int32Max)
    (hlt : ∀ v, w.checksum = some v → v < 2 ^ 32) :
    ∃ out, w.windowBytes = .ok out ∧ w.inst ≠ [] ∧
      WindowWith d w.interleaved w.checksum ops ((elemsOf defaultCoding [] d ops).flatMap elemMode) out ∧
      out.length = windowLen d (sizes ops) w.data.length w.inst.length w.addr.length (checksumLength w.checksum) ∧
      w.data.length = if w.interleaved then 0 else dataLens ops := by
  obtain ⟨h1, h2, h3, h4, h5, h6, h7, h8, h9, h10, h11⟩ := hi
  have hprog := h5.program
  obtain ⟨⟨front, x, hitems, hxo⟩, fo, o, hops, ho⟩ := h9.resolve_left (fun h => hne h.1)
  have hlens : ∀ l : List Item, (l.flatMap Item.inst).length + (l.flatMap Item.dataBytes).length +
      (l.flatMap Item.addr).length = (l.flatMap Item.bytes).length := by
    intro l
    induction l with
    | nil => rfl
    | cons a l ih =>
      simp only [List.flatMap_cons, List.length_append]
      cases a <;> simp only [Item.inst, Item.dataBytes, Item.addr, Item.bytes, List.length_nil] <;> omega
  have hlen : w.data.length + w.inst.length + w.addr.length = (items.flatMap Item.bytes).length := by
    rw [h6, h7, h8]
    cases hil : w.interleaved
    · have := hlens items
      simp only [sec, Bool.false_eq_true, if_false]; omega
    · simp [sec]
  obtain ⟨bd, d1, d2, d3, d4⟩ := sizeBytes_spec (n := w.dictionarySize) (by omega)
  obtain ⟨bp, p1, p2, p3, p4⟩ := sizeBytes_spec (n := 0) (by omega)
  obtain ⟨bt, t1, t2, t3, t4⟩ := sizeBytes_spec (n := w.targetLength) (by omega)
  obtain ⟨b1, q1, q2, q3, q4⟩ := sizeBytes_spec (n := w.data.length) (by omega)
  obtain ⟨b2, r1, r2, r3, r4⟩ := sizeBytes_spec (n := w.inst.length) (by omega)
  obtain ⟨b3, s1, s2, s3, s4⟩ := sizeBytes_spec (n := w.addr.length) (by omega)
  have hcks : ∃ bs, checksumBytes w.checksum = .ok bs ∧ bs.length ≤ 5 ∧
      checksumLength w.checksum = bs.length ∧ ChecksumField w.checksum bs := by
    cases hk : w.checksum with
    | none => exact ⟨[], rfl, by simp, rfl, rfl⟩
    | some v =>
      obtain ⟨bs, k1, k2, k3, k4, k5⟩ := checksumBytes_spec (hlt v hk)
      exact ⟨bs, k1, k4, k5, k2, k3⟩
  obtain ⟨bc, c1, c2, c3, c4⟩ := hcks
  have hdl : w.deltaLength = (bt ++ [0x00] ++ b1 ++ b2 ++ b3 ++ bc).length +
      (w.data.length + w.inst.length + w.addr.length) := by
    simp only [deltaLength, t4, q4, r4, s4, c3, List.length_append, List.length_cons, List.length_nil]
    omega
  obtain ⟨bl, l1, l2, l3, l4⟩ := sizeBytes_spec (n := w.deltaLength) (by
    rw [hdl]; simp only [List.length_append, List.length_cons, List.length_nil]; omega)
  have hdb : w.deltaBytes = .ok (bt ++ [0x00] ++ b1 ++ b2 ++ b3 ++ bc ++ w.data ++ w.inst ++ w.addr) := by
    simp only [deltaBytes, t1, q1, r1, s1, c1]; rfl
  refine ⟨[if w.checksum.isSome then 0x05 else 0x01] ++ (bd ++ bp) ++ bl ++ (bt ++ [0] ++ b1 ++ b2 ++ b3 ++ bc) ++
    (w.data ++ w.inst ++ w.addr), ?_, ?_, ?_, ?_, ?_⟩
  · simp only [windowBytes, d1, p1, l1, hdb, bind, Except.bind]
    rw [if_neg]
    · simp [List.append_assoc]
    · rw [hdl]; simp only [List.length_append, List.length_cons, List.length_nil, ne_eq, Decidable.not_not]; omega
  · rw [h6]
    obtain ⟨op, rest, e⟩ := hprog.head (by rw [hitems]; simp)
    rw [e]; simp
  · refine ⟨Reading.mk (if w.checksum.isSome then 0x05 else 0x01) (bd ++ bp) bl bt 0 b1 b2 b3 bc
      (w.data ++ w.inst ++ w.addr) (by simp [List.append_assoc]) ?_ (fun _ => ⟨bd, bp, rfl, d2.1, p2.1⟩) l2.1 t2.1 q2.1 r2.1 s2.1,
      items, w.data, w.inst, w.addr, ?_, ⟨bd, bp, rfl, d2.1, by rw [d2.2.1, h2], p2.1⟩, program_rfc hprog, h11, rfl, ?_,
      by rw [← h3]; exact t2.2.1, q2.2.1, r2.2.1, s2.2.1, c4, ?_, ?_⟩
    · intro h
      exfalso
      revert h
      cases w.checksum.isSome <;> decide
    · show (if w.checksum.isSome then 0x05 else 0x01 : UInt8) &&& 3 ≠ 0
      cases w.checksum.isSome <;> decide
    · rw [h6, h7, h8]
      cases w.interleaved
      · simp [sec]
      · simp [sec]
    · show (if w.checksum.isSome then 0x05 else 0x01 : UInt8) &&& 4 ≠ 0 ↔ w.checksum.isSome = true
      cases w.checksum.isSome <;> decide
    · show varintValue bl = (bt ++ [0] ++ b1 ++ b2 ++ b3 ++ bc).length + (w.data ++ w.inst ++ w.addr).length
      rw [l2.2.1, hdl]
      simp only [List.length_append]
  · have e : ∀ n : Nat, n ≤ int32Max → sizeLength n = varintLength n := fun n h => by rw [sizeLength, toInt32_eq h]
    have hb : w.deltaLength ≤ int32Max := l2.2.2
    rw [e _ (by omega)] at d4 t4 q4 r4 s4 l4
    have hbp : bp.length = 1 := by rw [← p4]; decide
    rw [h2] at d4
    rw [h3] at t4
    have hdl' : w.deltaLength = varintLength (sizes ops) + 1 + varintLength w.data.length + varintLength w.inst.length +
        varintLength w.addr.length + checksumLength w.checksum + (w.data.length + w.inst.length + w.addr.length) := by
      rw [hdl]
      simp only [List.length_append, List.length_cons, List.length_nil]
      omega
    simp only [windowLen, ← hdl']
    simp only [List.length_append, List.length_cons, List.length_nil]
    simp only [List.length_append, List.length_cons, List.length_nil] at hdl
    omega
  · rw [h7]
    cases w.interleaved
    · simpa using (program_least rfl hprog).choose_spec.2.2.2.2.1
    · rfl

/-- The window for the instructions `ops`. -/
theorem window_least (u : Usable defaultCoding 8 m) {d : Nat} {w : Writer} {ops : List Op} (hne : ops ≠ [])
    (hr : Ready defaultCoding 8 m d w) (hw : WritableAll d ops) (hsize : d + sizes ops ≤ int32Max)
    (hcost : costs ops + 26 ≤ int32Max) (hlt : ∀ v, w.checksum = some v → v < 2 ^ 32) :
    ∃ out, w.calls (ops.map Op.call ++ [.output]) = .ok (out, w) ∧
      WindowWith d w.interleaved w.checksum ops ((elemsOf defaultCoding [] d ops).flatMap elemMode) out ∧
      out.length = windowLen d (sizes ops) (if w.interleaved then 0 else dataLens ops)
        (greedy pairs operand none (elemsOf defaultCoding [] d ops) +
          if w.interleaved then dataLens ops + addrLens [] d ops else 0)
        (if w.interleaved then 0 else addrLens [] d ops) (checksumLength w.checksum) := by
  have hopen : Open m w none := by rw [hr.eq]; rfl
  obtain ⟨w1, items, k1, k2, k3, k4, k5, k6, k7, k8⟩ :=
    calls_least u hr.inv hopen (todo := ops) (by simpa [sizes] using hw) [.output]
  have z1 : w.inst.length = 0 := by rw [hr.eq]; rfl
  have z2 : w.addr.length = 0 := by rw [hr.eq]; rfl
  simp only [List.nil_append] at k6
  simp only [z1, z2, addrs, sizes, List.map_nil, List.sum_nil, List.flatMap_nil, Nat.zero_add, Nat.add_zero] at k7 k8
  obtain ⟨out, j1, j2, j3, j4, j5⟩ := windowBytes_exact k6 hne hsize hcost (by rw [k3]; exact hlt)
  rw [k2, k3] at j3
  refine ⟨out, ?_, j3, ?_⟩
  · have hinit : ({ w1 with data := [], inst := [], addr := [] } : Writer).init w1.dictionarySize = .ok (true, w) := by
      obtain ⟨w2, i1, i2, i3, i4⟩ := init_ready u (w := { w1 with data := [], inst := [], addr := [] })
        w1.dictionarySize
        (k4.trans hr.table) (k5.trans hr.maxMode) (Or.inr k6.map) (Or.inr ⟨_, k6.cache⟩) rfl rfl rfl
      rw [i1, hr.eq, i4.eq, i2, i3]
      simp only [k2, k3, k6.dict]
    rw [k1]
    simp only [calls, call, output, if_neg j2, j1, hinit, Except.map, List.append_nil]
  · rw [j4, j5, k2, k3, k7, k8]
    congr 1
    omega

/-! ## Comparing -/

theorem elems_modes {z : List ((Op × Nat) × (Op × Nat))} (h1 : ∀ a ∈ z, a.1.1 = a.2.1)
    (h2 : (z.map Prod.fst).flatMap elemMode = (z.map Prod.snd).flatMap elemMode) : ∀ a ∈ z, elemMode a.1 = elemMode a.2 := by
  induction z with
  | nil => simp
  | cons a z ih =>
    have hl : (elemMode a.1).length = (elemMode a.2).length := by
      have := h1 a (by simp)
      obtain ⟨⟨o, i⟩, ⟨p, j⟩⟩ := a
      simp only at this
      subst this
      cases o <;> rfl
    simp only [List.map_cons, List.flatMap_cons] at h2
    obtain ⟨e1, e2⟩ := List.append_inj h2 hl
    rintro b (_ | ⟨_, hb⟩)
    · exact e1
    · exact ih (fun b hb => h1 b (by simp [hb])) e2 b hb

theorem pairs_congr {x y x' y' : Op × Nat} (h1 : x.1 = x'.1) (h2 : y.1 = y'.1)
    (h : (elemMode x = elemMode x' ∧ elemMode y = elemMode y') ∨ (x.2 ≤ 8 ∧ x'.2 ≤ 8 ∧ y.2 ≤ 8 ∧ y'.2 ≤ 8 ∧
      ¬ ∃ bs a n, x.1 = .add bs ∧ y.1 = .copy a n ∧ bs.length ≤ 4 ∧ (n = 5 ∨ n = 6))) : pairs x y = pairs x' y' := by
  obtain ⟨x, i⟩ := x
  obtain ⟨x', i'⟩ := x'
  obtain ⟨y, j⟩ := y
  obtain ⟨y', j'⟩ := y'
  simp only at h1 h2
  subst h1 h2
  cases x with
  | run b n => rfl
  | add bs =>
    cases y with
    | add _ => rfl
    | run _ _ => rfl
    | copy a n =>
      rcases h with ⟨_, h⟩ | ⟨_, _, h3, h4, h5⟩
      · simp only [elemMode, List.cons.injEq, and_true] at h
        rw [h]
        rfl
      · have hn : ¬ (bs.length ≤ 4 ∧ (n = 5 ∨ n = 6)) := fun hh => h5 ⟨bs, a, n, rfl, rfl, hh⟩
        simp only at h3 h4
        rw [Bool.eq_iff_iff]
        simp only [pairs, Bool.and_eq_true, Bool.or_eq_true, decide_eq_true_eq]
        omega
  | copy a n =>
    cases y with
    | copy _ _ => rfl
    | run _ _ => rfl
    | add bs =>
      rcases h with ⟨h, _⟩ | ⟨h3, h4, _, _, _⟩
      · simp only [elemMode, List.cons.injEq, and_true] at h
        rw [h]
        rfl
      · simp only at h3 h4
        rw [Bool.eq_iff_iff]
        simp only [pairs, Bool.and_eq_true, decide_eq_true_eq]
        omega

/-- The modes matter only where there is a tight pair. -/
theorem greedy_modes {l l' : List (Op × Nat)} {ops : List Op} (h1 : l.map Prod.fst = ops) (h2 : l'.map Prod.fst = ops)
    (b1 : ∀ x ∈ l, x.2 ≤ 8) (b2 : ∀ x ∈ l', x.2 ≤ 8)
    (h : l.flatMap elemMode = l'.flatMap elemMode ∨ ¬ TightPair ops) :
    greedy pairs operand none l = greedy pairs operand none l' := by
  have hlen : l.length = l'.length := by
    have e1 := congrArg List.length h1
    have e2 := congrArg List.length h2
    simp only [List.length_map] at e1 e2
    omega
  have z1 : (l.zip l').map Prod.fst = l := List.map_fst_zip (by omega)
  have z2 : (l.zip l').map Prod.snd = l' := List.map_snd_zip (by omega)
  have hz : (l.zip l').map (fun a => a.1.1) = (l.zip l').map (fun a => a.2.1) := by
    have e1 : (l.zip l').map (fun a => a.1.1) = ((l.zip l').map Prod.fst).map Prod.fst := by rw [List.map_map]; rfl
    have e2 : (l.zip l').map (fun a => a.2.1) = ((l.zip l').map Prod.snd).map Prod.fst := by rw [List.map_map]; rfl
    rw [e1, e2, z1, z2, h1, h2]
  have hz' : ∀ a ∈ l.zip l', a.1.1 = a.2.1 := List.map_inj_left.1 hz
  have hops : (l.zip l').map (fun a => a.1.1) = ops := by
    rw [← h1, ← z1, List.map_map]
    simp only [z1]
    rfl
  have key := greedy_congr pairs operand (l.zip l') none (fun front a b rest e => ?_)
    (fun a ha => by simp only [operand, hz' a ha])
  · simpa only [Option.map_none, z1, z2] using key
  · simp only [Option.toList_none, List.nil_append] at e
    have ma : a ∈ l.zip l' := by rw [e]; simp
    have mb : b ∈ l.zip l' := by rw [e]; simp
    refine pairs_congr (hz' a ma) (hz' b mb) ?_
    rcases h with h | h
    · left
      have := elems_modes hz' (by rw [z1, z2]; exact h)
      exact ⟨this a ma, this b mb⟩
    · right
      have m1 : ∀ c ∈ l.zip l', c.1 ∈ l ∧ c.2 ∈ l' := fun c hc => ⟨(List.of_mem_zip hc).1, (List.of_mem_zip hc).2⟩
      refine ⟨b1 _ (m1 a ma).1, b2 _ (m1 a ma).2, b1 _ (m1 b mb).1, b2 _ (m1 b mb).2, ?_⟩
      rintro ⟨bs, x, n, e1, e2, e3, e4⟩
      refine h ⟨front.map (fun a => a.1.1), bs, x, n, rest.map (fun a => a.1.1), ?_, e3, e4⟩
      rw [← hops, e]
      simp [e1, e2]

theorem elemsOf_fst (c : Coding) (hist : List Nat) (here : Nat) (ops : List Op) : (elemsOf c hist here ops).map Prod.fst = ops := by
  induction ops generalizing hist here with
  | nil => rfl
  | cons o ops ih => simp only [elemsOf, List.map_cons, ih]

theorem elemsOf_modes {d : Nat} (hist : List Nat) (ops : List Op) (hw : WritableAll d ops) :
    ∀ x ∈ elemsOf defaultCoding hist d ops, x.2 ≤ 8 := by
  induction ops generalizing hist d with
  | nil => simp [elemsOf]
  | cons o ops ih =>
    simp only [elemsOf]
    rintro x (_ | ⟨_, hx⟩)
    · cases o with
      | add _ => exact Nat.zero_le _
      | run _ _ => exact Nat.zero_le _
      | copy a n =>
        obtain ⟨ha, hh⟩ := hw.1.2.2 a n rfl
        obtain ⟨mode, enc, bs, a1, a2, a3, a4, _⟩ := AddrCache.encode_is_AddrCode 4 3 hist (by decide) (by decide) a d ha hh
        show modeOf defaultCoding hist d a ≤ 8
        unfold modeOf
        have : (AddrCache.ofHist defaultCoding.near defaultCoding.same hist).encodeAddress a d =
          .ok mode enc (AddrCache.ofHist 4 3 (hist ++ [a])) := a1
        rw [this]
        show mode ≤ 8
        omega
    · exact ih _ hw.2 x hx

/-- The window is the shortest there is. -/
theorem window_shortest (u : Usable defaultCoding 8 m) {d : Nat} {w : Writer} {ops : List Op} (hne : ops ≠ [])
    (hr : Ready defaultCoding 8 m d w) (hw : WritableAll d ops) (hsize : d + sizes ops ≤ int32Max)
    (hcost : costs ops + 26 ≤ int32Max) (hlt : ∀ v, w.checksum = some v → v < 2 ^ 32) :
    ∃ out modes, w.calls (ops.map Op.call ++ [.output]) = .ok (out, w) ∧
      WindowWith d w.interleaved w.checksum ops modes out ∧
      ∀ modes' W, WindowWith d w.interleaved w.checksum ops modes' W → (modes' = modes ∨ ¬ TightPair ops) →
        out.length ≤ W.length := by
  obtain ⟨out, k1, k2, k3⟩ := window_least u hne hr hw hsize hcost hlt
  refine ⟨out, _, k1, k2, fun modes' W hW hm => ?_⟩
  obtain ⟨l, l1, l2, l3, l4⟩ := windowWith_least hW
  rw [k3, greedy_modes (elemsOf_fst _ _ _ _) l1 (elemsOf_modes _ _ hw) l2 (hm.imp_left fun e => by rw [← e, l3])]
  exact l4

end Writer
end Vcd
