import Verif.Props.Writer
import Verif.Props.Encoder
import Verif.Props.Reuse

/-!
# C25, C39: round trips with custom code tables
-/

namespace Vcd
open Spec

theorem Writer.header_code (flags : Nat) (tol : Tolerance) :
    FileHeaderCode tol (Writer.header flags) (flags != 0) defaultCoding := by
  unfold Writer.header
  by_cases h0 : flags = 0
  · rw [if_pos h0, h0]
    exact .plain (v := 0) (hi := 0) (Or.inl rfl) (by decide)
  · rw [if_neg h0, show (flags != 0) = ((0x53 : UInt8) == 0x53) by simp [h0]]
    exact .plain (v := 0x53) (hi := 0) (Or.inr rfl) (by decide)

/-- Writing windows one after the other. -/
theorem Writer.writeWindows_ok {c : Coding} {m : InstructionMap}
    (u : Writer.Usable c (c.near + c.same + 1) m) {checksum ext : Bool} {s : Settings} {dict : Bytes} {parts : List Part}
    {w : Writer} (hr : Writer.Ready c (c.near + c.same + 1) m dict.length w)
    (hck : checksum = false → w.checksum = none)
    (hext : w.interleaved = true ∨ checksum = true → ext = true) {prev : Bytes} (hp : ∀ part ∈ parts, GoodPart s dict part)
    (hfile : prev.length + (partsTarget parts).length ≤ s.maxFile) :
    ∃ out, writeWindows checksum w parts = .ok out ∧ Windows c ext strict s dict prev out (partsTarget parts) := by
  induction parts generalizing w prev with
  | nil => exact ⟨[], rfl, .nil⟩
  | cons part parts ih =>
    obtain ⟨ops, T⟩ := part
    have hg := hp _ (List.mem_cons_self ..)
    obtain ⟨g1, g2, g3, g4, g5⟩ := hg
    simp only at g1 g2 g3 g4 g5
    have hT : T.length = sizes ops := by
      have := execOps_length ops dict
      rw [g2, List.length_append] at this; omega
    have hpt : partsTarget ((ops, T) :: parts) = T ++ partsTarget parts := by simp [partsTarget]
    rw [hpt, List.length_append] at hfile
    have hcost := Writer.costs_le ops
    generalize hw' : (if checksum then w.addChecksum (computeAdler32 T) else w) = w'
    have hr' : Writer.Ready c (c.near + c.same + 1) m dict.length w' := by
      rw [← hw']
      split
      · exact hr.addChecksum _
      · exact hr
    have hil : w'.interleaved = w.interleaved := by
      rw [← hw']; split <;> rfl
    have hck' : checksum = false → w'.checksum = none := by
      intro h; rw [← hw', h]; exact hck h
    obtain ⟨out2, i1, i2⟩ := ih (w := w') (prev := prev ++ T) hr' hck' (by rw [hil]; exact hext)
      (fun p hp' => hp p (List.mem_cons_of_mem _ hp')) (by rw [List.length_append]; omega)
    by_cases hne : ops = []
    · subst hne
      have hT0 : T = [] := by simpa [execOps] using g2
      subst hT0
      refine ⟨out2, ?_, by rw [hpt]; simpa using i2⟩
      have hout := Writer.output_nothing u hr'
      simp only [writeWindows, hw', List.map_nil, List.nil_append, Writer.calls, Writer.call, hout, Except.map, i1]
    · obtain ⟨out, j1, j2, _⟩ := Writer.window_ok (ext := ext) (s := s) (prev := prev) u hne hr'
        (g1.writableAll (by simp only [int32Max]; omega)) g2
        (by simp only [int32Max]; omega) (by simp only [int32Max]; omega)
        (by
          intro h
          apply hext
          rcases h with h | h
          · exact Or.inl (by rw [← hil]; exact h)
          · cases checksum
            · exact absurd (hck' rfl) h
            · exact Or.inr rfl)
        (by
          intro v hv
          cases checksum
          · rw [hck' rfl] at hv; cases hv
          · rw [← hw'] at hv
            simp only [if_true, Writer.addChecksum, Option.some.injEq] at hv
            rw [← hv, computeAdler32_eq T (by omega)])
        g5 (by omega)
      refine ⟨out ++ out2, ?_, by rw [hpt]; exact .cons j2 i2⟩
      simp only [writeWindows, hw', j1, i1, Except.map]

namespace Props

/-- C39: the delta from the default code table to any table, made by a streaming encoder in any binary format, is one with
which the header of a delta file can bring this table. -/
theorem table_delta_made (t : CodeTable) (flags : Nat) (hb : flags &&& 4 = 0) (matching : Bool) :
    ∃ delta, encode defaultTable.toBytes flags matching [t.toBytes] = .ok (some delta) ∧ TableCode noSurplus delta t := by
  have hl := t.toBytes_length
  obtain ⟨windows, h1, h2, h3⟩ := encode_is_header_and_windows defaultTable.toBytes
    (by rw [default_table_size]; decide) flags hb matching [t.toBytes] (by
      intro data hm
      simp only [List.mem_singleton] at hm
      rw [hm, hl, default_table_size]
      decide)
  have hne : t.toBytes ≠ [] := by
    intro e; rw [e] at hl; simp at hl
  have hf : [t.toBytes].filter (· ≠ []) = [t.toBytes] := by simp [hne]
  rw [hf] at h2 h3
  obtain ⟨w, k1, _, _, k3⟩ := h3 0 t.toBytes rfl
  have hws : windows = [w] := by
    match windows, h2, k1 with
    | [_], _, k1 => simp at k1; rw [k1]
  subst hws
  have hwin := k3 tableSettings [] (by rw [hl]; decide) (by rw [hl]; decide)
  exact ⟨_, h1, Writer.header flags, [], w, [], t.toBytes, _, _, by simp, Writer.header_code flags noSurplus, .nil, by decide,
    hwin.mono ⟨by decide, by decide, by decide, by decide, by decide, Or.inl rfl⟩, rfl⟩

/-- C39: any usable code table can be given to the decoder with the library's own encoder. The delta from the default
code table to `t`, made by a streaming encoder, in any binary format, succeeds; and a file header with flag
`VCD_CODETABLE`, the sizes of the caches and this delta, followed by windows coded with `t`, is decoded to what the
windows stand for, in whatever chunks, whatever code table the decoder was left with by earlier uses. -/
theorem custom_table_transported (t : CodeTable) (near same : Nat) (hnear : near ≤ 255) (hsame : same ≤ 255)
    (ht : ValidTable (near + same + 1) t) (flags : Nat) (hb : flags &&& 4 = 0) (matching : Bool) :
    ∃ delta, encode defaultTable.toBytes flags matching [t.toBytes] = .ok (some delta) ∧
      ∀ (s : Settings) (left : CodeTable) (dict ws T : Bytes) (v : UInt8) (nb sb : Bytes), v = 0 ∨ v = 0x53 → NumCode nb near →
        NumCode sb same → Windows { table := t, near, same } (v == 0x53) noSurplus s dict [] ws T →
        ∀ cs, cs.flatten = [0xD6, 0xC3, 0xC4, v, 2] ++ nb ++ sb ++ delta ++ ws →
          (leftWith s left).decode dict cs = some T := by
  obtain ⟨delta, h1, h2⟩ := table_delta_made t flags hb matching
  refine ⟨delta, h1, ?_⟩
  intro s left dict ws T v nb sb hv hnb hsb hw cs hcs
  refine accepted_after_any_history s left dict T cs ?_
  rw [hcs]
  exact .mk (h2.header rfl hv (by decide) hnb hnear hsb hsame ht left) hw

/-- C25, C39: round trip with a custom code table, in all layouts. Windows written with a code table writer for the coding
`c`, after a header that carries the delta from the default code table to that of `c`, are decoded to what
their instructions produce, whatever code table the decoder was left with. -/
theorem custom_round_trip (c : Coding) (hc : WritableCoding c) (flags : Nat) (hb : flags &&& 4 = 0) (matching : Bool)
    (interleaved checksum ext : Bool) (hext : interleaved = true ∨ checksum = true → ext = true)
    (s : Settings) (dict : Bytes) (parts : List Part) (hp : ∀ part ∈ parts, GoodPart s dict part)
    (hfile : (partsTarget parts).length ≤ s.maxFile) (nb sb : Bytes) (hnb : NumCode nb c.near) (hsb : NumCode sb c.same) :
    ∃ delta w out, encode defaultTable.toBytes flags matching [c.table.toBytes] = .ok (some delta) ∧
      (Writer.newCustom interleaved c.near c.same c.table (c.near + c.same + 1)).init dict.length = .ok (true, w) ∧
      writeWindows checksum w parts = .ok out ∧
      ∀ (left : CodeTable) (cs : List Bytes), cs.flatten = [0xD6, 0xC3, 0xC4, if ext then 0x53 else 0, 2] ++ nb ++ sb ++ delta ++ out →
        (leftWith s left).decode dict cs = some (partsTarget parts) := by
  obtain ⟨m, u⟩ := hc.usable
  obtain ⟨delta, h1, h2⟩ := custom_table_transported c.table c.near c.same (by have := hc.near; omega)
    (by have := hc.sum; omega) hc.valid flags hb matching
  obtain ⟨w, k1, k2, k3, k4⟩ := Writer.init_ready u
    (w := Writer.newCustom interleaved c.near c.same c.table (c.near + c.same + 1)) dict.length rfl rfl (Or.inl rfl)
    (Or.inl rfl) rfl rfl rfl
  obtain ⟨out, j1, j2⟩ := Writer.writeWindows_ok (checksum := checksum) (ext := ext) (prev := []) u k4 (fun _ => k3)
    (by rw [k2]; exact hext) hp (by simpa using hfile)
  refine ⟨delta, w, out, h1, k1, j1, fun left cs hcs => h2 s left dict out _ _ nb sb ?_ hnb hsb ?_ cs hcs⟩
  · cases ext <;> simp
  · have e : ((if ext then 0x53 else 0 : UInt8) == 0x53) = ext := by cases ext <;> rfl
    rw [e]
    exact j2.mono ⟨by decide, by decide, by decide, by decide, by decide, Or.inl rfl⟩

/-- A small coding, unlike the default one: one NEAR slot, one SAME block, and seven opcodes: RUN, ADD, COPY in the modes
0 to 3, and ADD of 1 byte with COPY of 4 bytes in mode 0. -/
def smallCoding : Coding where
  near := 1
  same := 1
  table := CodeTable.mk ([2, 1, 3, 3, 3, 3, 1] ++ List.replicate 249 0) ([0, 0, 0, 0, 0, 0, 3] ++ List.replicate 249 0)
    ([0, 0, 0, 0, 0, 0, 1] ++ List.replicate 249 0) ([0, 0, 0, 0, 0, 0, 4] ++ List.replicate 249 0)
    ([0, 0, 0, 1, 2, 3, 0] ++ List.replicate 249 0) (List.replicate 256 0) (by decide +kernel)

theorem small_coding_writable : WritableCoding smallCoding :=
  ⟨(validate_iff _ _).1 (by decide +kernel), by
    intro op h1 h2
    exfalso
    revert h1 h2
    revert op
    apply forall_byte; decide +kernel, by decide, by decide⟩

theorem single_sensible {d : Nat} {o : Op} (h : 0 < o.size) (h' : ∀ a n, o = .copy a n → a < d) : Sensible d [o] := by
  intro pre p post e
  match pre, e with
  | [], e =>
    simp only [List.nil_append, List.cons.injEq] at e
    rw [← e.1]
    exact ⟨h, fun a n k => by have := h' a n k; simp [sizes]; omega⟩
  | _ :: pre, e => simp at e

/-- The hypotheses of `custom_round_trip` are met, by two windows for the dictionary `abcd`. -/
example : WritableCoding smallCoding ∧
    (∀ part ∈ ([([.run 0x2E 5], [0x2E, 0x2E, 0x2E, 0x2E, 0x2E]), ([.copy 1 4], [0x62, 0x63, 0x64, 0x62])] : List Part),
      GoodPart {} [0x61, 0x62, 0x63, 0x64] part) ∧ NumCode [1] smallCoding.near ∧ NumCode [1] smallCoding.same := by
  refine ⟨small_coding_writable, ?_, numCode_byte' rfl (by decide), numCode_byte' rfl (by decide)⟩
  intro part hm
  simp only [List.mem_cons, List.not_mem_nil, or_false] at hm
  rcases hm with rfl | rfl
  · exact ⟨single_sensible (by decide) (by simp), by decide +kernel, by decide, by decide, by decide⟩
  · exact ⟨single_sensible (by decide) (by simp), by decide +kernel, by decide, by decide, by decide⟩

/-- The hypotheses of `own_table_prevails` are met by the delta an encoder makes for this table. -/
example : ∃ delta, encode defaultTable.toBytes 0 true [smallCoding.table.toBytes] = .ok (some delta) ∧
    TableCode library delta smallCoding.table ∧ ValidTable (1 + 1 + 1) smallCoding.table := by
  obtain ⟨delta, h1, h2⟩ := table_delta_made smallCoding.table 0 rfl true
  exact ⟨delta, h1, h2.mono ⟨by decide, by decide, by decide, by decide, by decide, Or.inr rfl⟩, small_coding_writable.valid⟩

end Props
end Vcd
