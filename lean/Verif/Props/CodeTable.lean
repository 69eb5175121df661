import Verif.Proof.CodeTable

/-!
# C22, C23, C24: code tables and the encoder's instruction map
-/

namespace Vcd.Props
open Vcd Vcd.Spec

/-- C22: for every opcode, the built-in table's two halves are exactly those of the table in
RFC 3284 section 5.6 (which has 256 rows). -/
theorem default_table_is_rfc (op : UInt8) :
    rfcTable[op.toNat]? = some
      (((defaultTable.first op).inst.toNat, (defaultTable.first op).size.toNat,
          (defaultTable.first op).mode.toNat),
        ((defaultTable.second op).inst.toNat, (defaultTable.second op).size.toNat,
          (defaultTable.second op).mode.toNat)) ∧
    rfcTable.length = 256 := by
  constructor
  · rw [default_first, default_second]
    have key : rfcTable = (List.range 256).map (fun i =>
        (((unpack packedInst1 i).toNat, (unpack packedSize1 i).toNat, (unpack packedMode1 i).toNat),
          ((unpack packedInst2 i).toNat, (unpack packedSize2 i).toNat,
            (unpack packedMode2 i).toNat))) := by
      decide +kernel
    rw [key, List.getElem?_map, List.getElem?_range op.toNat_lt]
    rfl
  · decide +kernel

/-- The default table is usable with the default caches. -/
theorem default_table_usable : ValidTable 8 defaultTable := by
  refine ⟨?_, ⟨1, ?_⟩, ⟨0, ?_⟩, ?_⟩
  · intro op
    rw [default_first, default_second]
    revert op
    simp only [HalfOk]
    apply forall_byte; decide +kernel
  · rw [default_first, default_second]; decide +kernel
  · rw [default_first, default_second]; decide +kernel
  · intro m hm
    refine ⟨UInt8.ofNat (19 + 16 * m), ?_⟩
    rw [default_first, default_second]
    have key : ∀ m, m < 9 →
        (unpack packedInst1 (UInt8.ofNat (19 + 16 * m)).toNat).toNat = 3 ∧
        (unpack packedSize1 (UInt8.ofNat (19 + 16 * m)).toNat).toNat = 0 ∧
        (unpack packedMode1 (UInt8.ofNat (19 + 16 * m)).toNat).toNat = m ∧
        (unpack packedInst2 (UInt8.ofNat (19 + 16 * m)).toNat).toNat = 0 := by
      decide +kernel
    exact key m (by omega)

/-- C23: `Validate` returns true exactly for the usable tables, for every table and every
`max_mode`. -/
theorem validate_exact (t : CodeTable) (maxMode : Nat) :
    t.validate maxMode = true ↔ ValidTable maxMode t :=
  validate_iff t maxMode

/-- C22: the default table passes `Validate()`. -/
theorem default_table_validates : defaultTable.validate defaultLastMode = true :=
  (validate_exact _ _).2 default_table_usable

/-- C23, non-vacuity of the negative side: the all-zero table (256 times NOOP NOOP) is rejected. -/
example : ¬ ∃ h : (List.replicate 1536 (0 : UInt8)).length = 1536,
    ValidTable 8 (CodeTable.ofBytes (List.replicate 1536 0) h) := by
  rintro ⟨h, _, ⟨op, h1, _⟩, _⟩
  simp only [CodeTable.first, CodeTable.ofBytes, List.getD_eq_getElem?_getD,
    List.take_replicate, List.getElem?_replicate] at h1
  split at h1 <;> simp at h1

/-- C24, building: for every usable table the map is built without an array access out of bounds
exactly if no NOOP-first opcode uses a size larger than all first sizes. (Without that extra
condition the claim is false, see `instruction_map_oob`.) -/
theorem instruction_map_builds_partial (t : CodeTable) (maxMode : Nat) (hv : ValidTable maxMode t) :
    (∃ m, InstructionMap.build t maxMode = some m) ↔ SwappedSizesFit t :=
  ⟨fun ⟨_, hb⟩ => build_fits hb, build_total t maxMode hv⟩

/-- The default table satisfies the extra condition. -/
theorem default_table_fits : SwappedSizesFit defaultTable := by
  intro op h1 h2
  exfalso
  revert h1 h2
  rw [default_first, default_second]
  revert op
  apply forall_byte; decide +kernel

/-- The default instruction map exists. -/
theorem default_map_builds : ∃ m, defaultMap = some m :=
  build_total defaultTable 8 default_table_usable default_table_fits

/-- C24, first lookup: for every usable table and every well-formed instruction, the lookup
performs no out-of-bounds access; an opcode it returns has the instruction as its only non-NOOP
half, and is the least such opcode; it returns none only if there is no such opcode. -/
theorem lookup_first_exact (t : CodeTable) (maxMode : Nat) (hv : ValidTable maxMode t)
    (m : InstructionMap) (hb : InstructionMap.build t maxMode = some m)
    (h : Half) (hok : HalfOk maxMode h) :
    ∃ r, m.firstMap.lookup h.inst h.size.toNat h.mode.toNat = .found r ∧
      (∀ op, r = some op → IsSingle t op h ∧ ∀ op', IsSingle t op' h → op.toNat ≤ op'.toNat) ∧
      (r = none → ∀ op, ¬ IsSingle t op h) :=
  lookupFirst_spec hv hb h hok

/-- C24, explicit sizes always work: looking up ADD, RUN or a COPY mode with size 0 never returns
"no opcode". -/
theorem lookup_first_size0 (t : CodeTable) (maxMode : Nat) (hv : ValidTable maxMode t)
    (m : InstructionMap) (hb : InstructionMap.build t maxMode = some m)
    (h : Half) (hok : HalfOk maxMode h) (hs : h.size = 0) (hne : h.inst.toNat ≠ 0) :
    ∃ op, m.firstMap.lookup h.inst 0 h.mode.toNat = .found (some op) ∧ IsSingle t op h := by
  obtain ⟨r, h1, h2, h3⟩ := lookupFirst_spec hv hb h hok
  rw [hs] at h1
  cases r with
  | some op => exact ⟨op, h1, (h2 op rfl).1⟩
  | none =>
    exfalso
    obtain ⟨e1, e2, e3, e4⟩ := hok
    have hexp : Expressible t h.inst.toNat h.mode.toNat := by
      by_cases c3 : h.inst.toNat = 3
      · rw [c3]; exact hv.2.2.2 _ e2
      · rw [e4 c3]
        by_cases c2 : h.inst.toNat = 2
        · rw [c2]; exact hv.2.2.1
        · have : h.inst.toNat = 1 := by omega
          rw [this]; exact hv.2.1
    obtain ⟨op, o1, o2, o3, o4⟩ := hexp
    refine h3 rfl op (Or.inl ⟨?_, o4⟩)
    cases hh : t.first op with
    | mk i s md =>
      rw [hh] at o1 o2 o3
      cases h with
      | mk i' s' md' =>
        simp only [Half.mk.injEq, u8_eq_iff] at *
        refine ⟨o1, ?_, o3⟩
        rw [o2, hs]; rfl

/-- C24, second lookup: given an opcode found for a first instruction, an opcode returned for a
second instruction stands for exactly these two instructions in this order; it returns none only if
there is no such opcode. -/
theorem lookup_second_exact (t : CodeTable) (maxMode : Nat) (hv : ValidTable maxMode t)
    (m : InstructionMap) (hb : InstructionMap.build t maxMode = some m)
    (h1 : Half) (hok1 : HalfOk maxMode h1) (hne1 : h1.inst ≠ vcdNoop) (op1 : UInt8)
    (hop1 : m.firstMap.lookup h1.inst h1.size.toNat h1.mode.toNat = .found (some op1))
    (h : Half) (hok : HalfOk maxMode h) (hne : h.inst ≠ vcdNoop) :
    ∃ r, m.secondMap.lookup op1 h.inst h.size.toNat h.mode.toNat = .found r ∧
      (∀ op, r = some op → t.first op = h1 ∧ t.second op = h) ∧
      (r = none → ∀ op, ¬ (t.first op = h1 ∧ t.second op = h)) :=
  lookupSecond_spec hv hb h1 hok1 hne1 op1 hop1 h hok hne

/-- A usable table for which the constructor writes out of bounds: the default one with opcode 255
replaced by NOOP, ADD 200. -/
def oobTable : CodeTable where
  inst1 := defaultInst1.set 255 0
  inst2 := defaultInst2.set 255 1
  size1 := defaultSize1.set 255 0
  size2 := defaultSize2.set 255 200
  mode1 := defaultMode1.set 255 0
  mode2 := defaultMode2.set 255 0
  lengths := by decide +kernel

theorem oobTable_first (op : UInt8) :
    oobTable.first op = if op = 255 then ⟨0, 0, 0⟩ else defaultTable.first op := by
  have hl := defaultTable.lengths
  simp only [defaultTable] at hl
  simp only [CodeTable.first, oobTable, defaultTable, List.getD_eq_getElem?_getD,
    List.getElem?_set, hl]
  by_cases h : op = 255
  · subst h; rfl
  · have : ¬ (255 = op.toNat) := fun e => h ((u8_eq_iff _ _).2 e.symm)
    simp [h, this]

theorem oobTable_second (op : UInt8) :
    oobTable.second op = if op = 255 then ⟨1, 200, 0⟩ else defaultTable.second op := by
  have hl := defaultTable.lengths
  simp only [defaultTable] at hl
  simp only [CodeTable.second, oobTable, defaultTable, List.getD_eq_getElem?_getD,
    List.getElem?_set, hl]
  by_cases h : op = 255
  · subst h; rfl
  · have : ¬ (255 = op.toNat) := fun e => h ((u8_eq_iff _ _).2 e.symm)
    simp [h, this]

/-- C24's memory-safety part is false in general: this table passes `Validate`, and the constructor
writes outside `first_opcodes_`. -/
theorem instruction_map_oob :
    oobTable.validate 8 = true ∧ InstructionMap.build oobTable 8 = none := by
  constructor
  · rw [validate_exact]
    obtain ⟨d1, d2, d3, d4⟩ := default_table_usable
    have lift : ∀ inst mode, Expressible defaultTable inst mode →
        (∃ op, op ≠ 255 ∧ (defaultTable.first op).inst.toNat = inst ∧
          (defaultTable.first op).size.toNat = 0 ∧ (defaultTable.first op).mode.toNat = mode ∧
          (defaultTable.second op).inst.toNat = 0) := by
      rintro inst mode ⟨op, a, b, c, d⟩
      refine ⟨op, ?_, a, b, c, d⟩
      rintro rfl
      rw [default_first] at b
      revert b; decide +kernel
    have lift2 : ∀ inst mode, Expressible defaultTable inst mode → Expressible oobTable inst mode := by
      intro inst mode h
      obtain ⟨op, h1, h2⟩ := lift inst mode h
      refine ⟨op, ?_⟩
      rw [oobTable_first, oobTable_second, if_neg h1, if_neg h1]
      exact h2
    refine ⟨?_, lift2 _ _ d2, lift2 _ _ d3, fun m hm => lift2 _ _ (d4 m hm)⟩
    intro op
    rw [oobTable_first, oobTable_second]
    by_cases h : op = 255
    · rw [if_pos h, if_pos h]; simp [HalfOk]
    · rw [if_neg h, if_neg h]; exact d1 op
  · cases hb : InstructionMap.build oobTable 8 with
    | none => rfl
    | some m =>
      exfalso
      have h := build_bound hb 255 ⟨1, 200, 0⟩ (by
        rw [firstKey_iff]
        right
        rw [oobTable_first, oobTable_second]
        simp)
      have : findMaxSize oobTable.size1 = 18 := by decide +kernel
      rw [this] at h
      exact absurd h (by decide)

end Vcd.Props
