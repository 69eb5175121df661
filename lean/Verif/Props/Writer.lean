import Verif.Proof.Writer
import Verif.Spec.Writer
import Verif.Props.CodeTable
import Verif.Props.Rfc

/-!
# C25: the code table writer
-/

namespace Vcd
open Spec

theorem Spec.WritableCoding.usable {c : Coding} (h : WritableCoding c) :
    ∃ m, Writer.Usable c (c.near + c.same + 1) m := by
  obtain ⟨m, hm⟩ := build_total _ _ h.valid h.fits
  exact ⟨m, h.valid, hm, rfl, h.near, h.sum⟩

theorem Spec.Sensible.writableAll {d : Nat} {ops : List Op} (h : Sensible d ops) (hs : d + sizes ops ≤ int32Max) :
    Writer.WritableAll d ops := by
  induction ops generalizing d with
  | nil => trivial
  | cons o ops ih =>
    have hsz : sizes (o :: ops) = o.size + sizes ops := by simp [sizes]
    obtain ⟨h1, h2⟩ := h [] o ops rfl
    refine ⟨⟨h1, by omega, ?_⟩, ih ?_ (by omega)⟩
    · intro a n e
      have := h2 a n e
      simp only [sizes, List.map_nil, List.sum_nil] at this
      exact ⟨this, by omega⟩
    · intro pre p post e
      obtain ⟨k1, k2⟩ := h (o :: pre) p post (by rw [e]; rfl)
      refine ⟨k1, fun a n e' => ?_⟩
      have := k2 a n e'
      have hsz : sizes (o :: pre) = o.size + sizes pre := by simp [sizes]
      omega

theorem Writer.costs_le (ops : List Op) : Writer.costs ops ≤ sizes ops + 11 * ops.length := by
  induction ops with
  | nil => simp [Writer.costs]
  | cons o ops ih =>
    have h1 : Writer.costs (o :: ops) = Writer.cost o + Writer.costs ops := by simp [Writer.costs]
    have h2 : sizes (o :: ops) = o.size + sizes ops := by simp [sizes]
    have h3 : Writer.cost o ≤ o.size + 11 := by cases o <;> simp [Writer.cost, Op.size]
    simp only [List.length_cons]
    omega

theorem Writer.fileCode_of_windows {flags : Nat} {tol : Tolerance} {s : Settings} {dict out T : Bytes}
    (hw : Windows defaultCoding (flags != 0) tol s dict [] out T) : FileCode tol s dict (Writer.header flags ++ out) T := by
  unfold Writer.header
  by_cases h0 : flags = 0
  · rw [if_pos h0]
    refine .mk (.plain (v := 0) (hi := 0) (Or.inl rfl) (by decide)) ?_
    rw [h0] at hw; exact hw
  · rw [if_neg h0]
    refine .mk (.plain (v := 0x53) (hi := 0) (Or.inr rfl) (by decide)) ?_
    rw [show (flags != 0) = ((0x53 : UInt8) == 0x53) by simp [h0]] at hw; exact hw

namespace Props

/-- C25, writing, for every code table a writer can work with. After `Init`, every sensible sequence of
`Add`, `Run` and `Copy` followed by `Output` succeeds; what is output is, by the grammar, a window that
stands for the bytes those instructions produce; and the writer is then as it was before. `ext` is the
format the window is put into: interleaving and checksums need the extensions. -/
theorem writer_window (c : Coding) (hc : WritableCoding c) (interleaved checksum ext : Bool)
    (hext : interleaved = true ∨ checksum = true → ext = true) (s : Settings) (dict prev T : Bytes) (ops : List Op)
    (hne : ops ≠ []) (hops : Sensible dict.length ops) (hexec : execOps dict ops = dict ++ T)
    (hlen : dict.length + T.length < 2 ^ 31) (hlen' : T.length + 11 * ops.length + 26 < 2 ^ 31)
    (hwin : T.length ≤ s.maxWindow) (hfile : prev.length + T.length ≤ s.maxFile) :
    ∃ w out, (Writer.newCustom interleaved c.near c.same c.table (c.near + c.same + 1)).init dict.length
        = .ok (true, w) ∧
      let w := if checksum then w.addChecksum (computeAdler32 T) else w
      w.calls (ops.map Op.call ++ [.output]) = .ok (out, w) ∧
      WindowCode c ext strict s dict prev out T ∧ Layout interleaved checksum T out := by
  obtain ⟨m, u⟩ := hc.usable
  obtain ⟨w, k1, k2, k3, k4⟩ := Writer.init_ready u
    (w := Writer.newCustom interleaved c.near c.same c.table (c.near + c.same + 1)) dict.length rfl rfl (Or.inl rfl)
    (Or.inl rfl) rfl rfl rfl
  have hT : T.length = sizes ops := by
    have := execOps_length ops dict
    rw [hexec, List.length_append] at this; omega
  have hcost := Writer.costs_le ops
  have hr : Writer.Ready c (c.near + c.same + 1) m dict.length
      (if checksum then w.addChecksum (computeAdler32 T) else w) := by
    split
    · exact k4.addChecksum _
    · exact k4
  obtain ⟨out, j1, j2, _, j4, _⟩ := Writer.window_ok (ext := ext) (s := s) (prev := prev) u hne hr
    (hops.writableAll (by simp only [int32Max]; omega)) hexec
    (by simp only [int32Max]; omega) (by simp only [int32Max]; omega)
    (by
      intro h
      apply hext
      cases checksum
      · simp only [Bool.false_eq_true, if_false, k2, k3, Writer.newCustom] at h
        simpa using h
      · exact Or.inr rfl)
    (by
      intro v hv
      cases checksum
      · simp only [Bool.false_eq_true, if_false, k3, Writer.newCustom] at hv
        cases hv
      · simp only [if_true, Writer.addChecksum, Option.some.injEq] at hv
        rw [← hv, computeAdler32_eq T (by omega)])
    hwin hfile
  refine ⟨w, out, k1, j1, j2, ?_⟩
  have e1 : (if checksum then w.addChecksum (computeAdler32 T) else w).interleaved = interleaved := by
    cases checksum
    · simp only [Bool.false_eq_true, if_false, k2, Writer.newCustom]
    · simp only [if_true, Writer.addChecksum, k2, Writer.newCustom]
  have e2 : (if checksum then w.addChecksum (computeAdler32 T) else w).checksum.isSome = checksum := by
    cases checksum
    · simp only [Bool.false_eq_true, if_false, k3, Writer.newCustom, Option.isSome]
    · simp only [if_true, Writer.addChecksum, Option.isSome]
  rw [e1, e2] at j4
  exact j4

/-- The default coding is one a writer can work with. -/
theorem default_coding_writable : WritableCoding defaultCoding :=
  ⟨default_table_usable, default_table_fits, by decide, by decide⟩

/-- C25, writing and reading, in all layouts (`flags` is what is passed to `WriteHeader`): every sensible
sequence of `Add`, `Run` and `Copy` between `Init` and `Output` succeeds, and header and window together,
in whatever chunks, are decoded to the bytes those instructions produce. -/
theorem writer_reader_agree (interleaved checksum : Bool) (flags : Nat)
    (hflags : interleaved = true ∨ checksum = true → flags ≠ 0) (s : Settings) (dict T : Bytes) (ops : List Op)
    (hops : Sensible dict.length ops) (hexec : execOps dict ops = dict ++ T)
    (hlen : dict.length + T.length < 2 ^ 31) (hlen' : T.length + 11 * ops.length + 26 < 2 ^ 31)
    (hwin : T.length ≤ s.maxWindow) (hfile : T.length ≤ s.maxFile) :
    ∃ w out, (Writer.new interleaved).init dict.length = .ok (true, w) ∧
      let w := if checksum then w.addChecksum (computeAdler32 T) else w
      w.calls (ops.map Op.call ++ [.output]) = .ok (out, w) ∧
      ∀ cs, cs.flatten = Writer.header flags ++ out → (configured s).decode dict cs = some T := by
  have hfileCode : ∀ out, (out = [] ∧ T = [] ∨ WindowCode defaultCoding (flags != 0) strict s dict [] out T) →
      FileCode strict s dict (Writer.header flags ++ out) T := by
    intro out h
    apply Writer.fileCode_of_windows
    rcases h with ⟨rfl, rfl⟩ | h
    · exact .nil
    · have := Windows.cons (ws := []) (Ts := []) h .nil
      simpa using this
  by_cases hne : ops = []
  · subst hne
    have hT : T = [] := by simpa [execOps] using hexec
    subst hT
    obtain ⟨m, u⟩ := default_coding_writable.usable
    obtain ⟨w, k1, _, _, k4⟩ := Writer.init_ready u
      (w := Writer.new interleaved) dict.length rfl rfl (Or.inl rfl) (Or.inl rfl) rfl rfl rfl
    refine ⟨w, [], k1, ?_, fun cs hcs => conforming_accepted_partial s dict _ _ (hfileCode [] (Or.inl ⟨rfl, rfl⟩)) cs hcs⟩
    have hr : Writer.Ready defaultCoding (defaultCoding.near + defaultCoding.same + 1) m dict.length
        (if checksum then w.addChecksum (computeAdler32 []) else w) := by
      split
      · exact k4.addChecksum _
      · exact k4
    have hout := Writer.output_nothing u hr
    simp only [List.map_nil, List.nil_append, Writer.calls, Writer.call, hout, Except.map]
  · obtain ⟨w, out, h1, h2, h3, _⟩ := writer_window defaultCoding default_coding_writable interleaved checksum (flags != 0)
      (fun h => by simpa using hflags h) s dict [] T ops hne hops hexec hlen hlen' hwin (by simpa using hfile)
    exact ⟨w, out, h1, h2, fun cs hcs => conforming_accepted_partial s dict _ _ (hfileCode out (Or.inr h3)) cs hcs⟩

/-- An instance with all three instructions, a compound opcode and an overlapping COPY, and the bytes
`Output` gives for it: opcode 235 is an ADD of 1 byte and a COPY of 4 bytes in the first SAME mode. -/
example : let dict : Bytes := [0x61, 0x62, 0x63, 0x64]
    let ops : List Op := [.add [0x78], .copy 0 4, .run 0x2E 300, .copy 306 9]
    Sensible dict.length ops ∧
    (execOps dict ops).length = 4 + 314 ∧
    ((Writer.new true).init 4).toOption.bind (fun r => (r.2.calls (ops.map Op.call ++ [.output])).toOption.map Prod.fst)
      = some [1, 4, 0, 15, 0x82, 0x3A, 0, 0, 9, 0, 235, 0x78, 0, 0, 0x82, 0x2C, 0x2E, 41, 3] := by
  refine ⟨?_, by decide +kernel, by decide +kernel⟩
  intro pre o post e
  match pre, e with
  | [], e => simp at e; rw [← e.1]; simp [Op.size]
  | [_], e => simp at e; rw [← e.2.1]; simp [Op.size]; omega
  | [_, _], e => simp at e; rw [← e.2.2.1]; simp [Op.size]
  | [_, _, _], e => simp at e; rw [← e.2.2.2.1]; simp [Op.size, sizes, ← e.1, ← e.2.1, ← e.2.2.1]
  | _ :: _ :: _ :: _ :: _, e => simp at e

/-- Against C25 without its condition on sizes: `Add("", 0)` then `Add("a", 1)` give a window that is
refused, because the size of the first, although the opcode calls for it, is not written. -/
theorem zero_size_add_corrupts :
    ∃ out, ((Writer.new false).init 0).toOption.bind
        (fun r => (r.2.calls [.add [], .add [0x61], .output]).toOption.map Prod.fst) = some out ∧
      ({} : Decoder).decode [] [Writer.header 0 ++ out] = none :=
  ⟨[1, 0, 0, 8, 1, 0, 1, 2, 0, 0x61, 1, 2], by decide +kernel, by decide +kernel⟩

end Props
end Vcd
