import Verif.Proof.MainLog
import Verif.Props.Main

/-!
# C82: what the `vcdiff` command writes to standard error

`mainLog n t a s` are the lines that the command has written when its loops have made `n` turns, or fewer if it has ended (`Verif.Model.MainLog`).
-/

namespace Vcd.Props
open Vcd Vcd.Spec Vcd.Cli

/-- C82: whatever the command line, the files and the trouble with them, the command writes exactly one error message of its own if its exit status is
1, and none if it is 0 or the command has not ended yet. -/
theorem command_reports (n : Nat) (t : Trouble) (a : Args) (s : System) (r : Cli.Run) (h : main n t a s = .ok r) :
    errors (mainLog n t a s) = if r.status = some 1 then 1 else 0 := mainLog_errors h

/-- C82: a message that a file could not be opened, measured, read or written names a file with which there is such trouble. -/
theorem file_errors_truthful (n : Nat) (t : Trouble) (a : Args) (s : System) : ∀ l ∈ mainLog n t a s, l.Truthful t s := by
  intro l hl
  have e : ∀ l : Line, l.Truthful t { s with stdout := [] } → l.Truthful t s := fun l h => h.mono (fun x h => h)
  unfold mainLog at hl
  dsimp only at hl
  split at hl
  · split at hl
    · simp only [List.mem_singleton] at hl; subst hl; trivial
    · split at hl
      · simp only [List.mem_singleton] at hl; subst hl; trivial
      · split at hl
        · exact e l (runEncodeLog_true l hl)
        · split at hl
          · exact e l (runDecodeLog_true l hl)
          · split at hl
            · split at hl
              · simp only [List.mem_singleton] at hl; subst hl; trivial
              · rcases List.mem_append.1 hl with hl | hl
                · exact e l (runEncodeLog_true l hl)
                · split at hl
                  · simp at hl
                  · rename_i r hr
                    split at hl
                    · refine e l ((runCompareLog_true l hl).mono ?_)
                      rcases runEncode_files rfl hr with h1 | ⟨y, h1⟩
                      · rw [h1]; exact fun x h => h
                      · rw [h1]
                        intro x hx
                        by_cases hd : x = a.delta
                        · subst hd
                          unfold System.put at hx
                          split at hx
                          · exact hx
                          · simp at hx
                        · rwa [System.put_files_ne hd] at hx
                    · simp at hl
            · simp only [List.mem_singleton] at hl; subst hl; trivial
  · simp only [List.mem_singleton] at hl; subst hl; trivial

/-- Such messages occur: a dictionary that is missing, a delta that is damaged, and an output that is full. -/
example :
    mainLog 2 {} { rest := ["decode"], dictionary := "absent", target := "out", delta := "delta" } exampleFiles = [.own (.opening "absent")] ∧
    mainLog 2 { damage := fun x => if x = "delta" then some 3 else none }
      { rest := ["decode"], dictionary := "dict", target := "out", delta := "delta" } exampleFiles = [.own (.reading "delta")] ∧
    mainLog 2 { space := fun _ => some 0, passed := fun n => n }
      { rest := ["decode"], dictionary := "dict", target := "out", delta := "delta" } exampleFiles = [.own (.writing "out")] := by
  refine ⟨by decide +kernel, by decide +kernel, by decide +kernel⟩

/-- C82 for `decode`: if the exit status is 0, then nothing at all has been written, unless the delta has a code table of its own, in which case the
lines are about that table. (The limit is one that the decoder takes; a larger one is reported, and not used.) -/
theorem successful_decode_silent (n : Nat) (t : Trouble) (a : Args) (s : System) (r : Cli.Run)
    (hcmd : a.rest = ["decode"] ∨ a.rest = ["patch"]) (hin : a.delta = "" ∨ a.delta ≠ a.target)
    (hl : a.flags.maxTargetWindowSize < 2 ^ 31) (h : main n t a s = .ok r) (h0 : r.status = some 0) :
    (¬ CustomTable (s.input a.delta) → mainLog n t a s = []) ∧ ∀ l ∈ mainLog n t a s, l = .decoder .badTable := by
  have hd : a.dictionary ≠ "" := by
    intro hd
    rcases hcmd with hc | hc <;> simp [main, hc, hd] at h <;> simp [← h] at h0
  have hb : a.flags.buffersize ≠ 0 := by
    intro hb
    rcases hcmd with hc | hc <;> simp [main, hc, hd, hb] at h <;> simp [← h] at h0
  rw [main_decode hd hb hcmd] at h
  have e : mainLog n t a s = runDecodeLog n t a { s with stdout := [] } := by
    rcases hcmd with hc | hc <;> simp [mainLog, hc, hd, hb]
  have := runDecodeLog_lines (t := t) rfl hin (by simp only [targetSizeLimit]; omega) h h0
  rw [e]
  refine ⟨?_, fun l hm => (this l hm).1⟩
  intro hn
  rw [List.eq_nil_iff_forall_not_mem]
  exact fun l hm => hn (this l hm).2

/-- C82 for `encode` in a binary format: if the exit status is 0, then nothing at all has been written. -/
theorem successful_encode_silent (n : Nat) (t : Trouble) (a : Args) (s : System) (r : Cli.Run)
    (hcmd : a.rest = ["encode"] ∨ a.rest = ["delta"]) (hjson : a.flags.json = false) (dict : Bytes) (hdict : s.files a.dictionary = some dict)
    (hl1 : dict.length + a.flags.buffersize < 2 ^ 31) (hl2 : a.flags.buffersize + 64 < 2 ^ 31)
    (h : main n t a s = .ok r) (h0 : r.status = some 0) : mainLog n t a s = [] := by
  have hd : a.dictionary ≠ "" := by
    intro hd
    rcases hcmd with hc | hc <;> simp [main, hc, hd] at h <;> simp [← h] at h0
  have hb : a.flags.buffersize ≠ 0 := by
    intro hb
    rcases hcmd with hc | hc <;> simp [main, hc, hd, hb] at h <;> simp [← h] at h0
  rw [main_encode hd hb hcmd] at h
  have e : mainLog n t a s = runEncodeLog n t a { s with stdout := [] } := by
    rcases hcmd with hc | hc <;> simp [mainLog, hc, hd, hb]
  rw [e]
  exact runEncodeLog_nil (t := t) rfl hjson hdict hl1 hl2 h h0

/-- C82 for `test` in a binary format: if the exit status is 0, then nothing at all has been written. -/
theorem successful_test_silent (n : Nat) (t : Trouble) (a : Args) (s : System) (r : Cli.Run)
    (hcmd : a.rest = ["test"]) (hjson : a.flags.json = false) (hin : a.target ≠ a.delta) (hl : a.flags.maxTargetWindowSize < 2 ^ 31)
    (dict : Bytes) (hdict : s.files a.dictionary = some dict) (hl1 : dict.length + a.flags.buffersize < 2 ^ 31)
    (hl2 : a.flags.buffersize + 64 < 2 ^ 31) (h : main n t a s = .ok r) (h0 : r.status = some 0) : mainLog n t a s = [] := by
  have henc := test_runs_encode n t a s r hcmd h h0
  have h1 := successful_encode_silent n t { a with rest := ["encode"] } s r (Or.inl rfl) hjson dict hdict hl1 hl2 henc h0
  obtain ⟨dict', chunks, delta, k1, k2, k3, k4, k5⟩ :=
    encode_status_zero_partial n t { a with rest := ["encode"] } s r (Or.inl rfl) (Or.inr hin) henc h0
  have hd : a.dictionary ≠ "" := by
    intro hd
    simp [main, hcmd, hd] at h
    simp [← h] at h0
  have hb : a.flags.buffersize ≠ 0 := by
    intro hb
    simp [main, hcmd, hd, hb] at h
    simp [← h] at h0
  have hf : ¬ (a.target = "" ∨ a.delta = "") := by
    intro hf
    simp [main, hcmd, hd, hb, hf] at h
    simp [← h] at h0
  have e : mainLog n t a s = runEncodeLog n t a { s with stdout := [] } ++
      match runEncode n t a { s with stdout := [] } with
      | .error _ => []
      | .ok r => if r.status = some 0 then runCompareLog n t a r.sys else [] := by
    simp [mainLog, hcmd, hd, hb, hf]
    rfl
  have e1 : runEncodeLog n t a { s with stdout := [] } = [] := by
    rw [← h1]
    simp [mainLog, hd, hb, runEncodeLog]
  rw [e, e1, List.nil_append]
  rw [main_encode (a := { a with rest := ["encode"] }) hd hb (Or.inl rfl)] at henc
  have henc' : runEncode n t a { s with stdout := [] } = .ok r := henc
  have htest : runCompare n t a r.sys = .ok r := by
    rcases main_cases h with h | ⟨hc, h⟩ | ⟨hc, h⟩ | ⟨hc, r1, h1, ⟨h2, h⟩ | ⟨h2, h⟩⟩
    · rw [h] at h0; cases h0
    · rcases hc with hc | hc <;> rw [hc] at hcmd <;> simp at hcmd
    · rcases hc with hc | hc <;> rw [hc] at hcmd <;> simp at hcmd
    · rw [h] at h0; exact absurd h0 h2
    · rw [h1] at henc'
      cases henc'
      exact h
  simp only [henc', h0, if_true]
  have hlines := runCompareLog_lines (by simp only [targetSizeLimit]; omega) htest h0
  rw [List.eq_nil_iff_forall_not_mem]
  intro l hm
  obtain ⟨b, hb4, hb2⟩ := (hlines l hm).2
  rw [k1] at hdict
  cases hdict
  have hfl : cliFormat a.flags &&& 4 = 0 := by
    rw [cliFormat_eq]
    simp only [Cli.Flags.format, hjson]
    cases a.flags.interleaved <;> cases a.flags.checksum <;> decide
  obtain ⟨windows, w1, _⟩ := encode_is_header_and_windows dict (by omega) (cliFormat a.flags) hfl a.flags.targetMatches chunks (by
    intro data hdm
    have : data.length ≤ a.flags.buffersize := (k3.1 data hdm).2
    omega)
  have k4' : Vcd.encode dict (cliFormat a.flags) a.flags.targetMatches chunks = .ok (some delta) := k4
  rw [w1] at k4'
  simp only [Except.ok.injEq, Option.some.injEq] at k4'
  have hpre : r.sys.input a.delta <+: delta := by
    have ho : outputOf r.sys a.delta = r.sys.input a.delta := by
      simp only [not_or] at hf
      simp [outputOf, System.input, hf.2]
    rw [← ho]
    rcases k5 with k5 | ⟨k, _, _, _, k5⟩
    · rw [show outputOf r.sys a.delta = delta from k5]; exact List.prefix_refl _
    · rw [show outputOf r.sys a.delta = delta.take k from k5]; exact List.take_prefix _ _
  have h5 : CustomTable delta := customTable_prefix ⟨b, hb4, hb2⟩ hpre
  obtain ⟨b, hb4, hb2⟩ := h5
  rw [← k4'] at hb4
  simp only [Writer.header] at hb4
  split at hb4 <;> · simp at hb4; subst hb4; exact hb2 (by decide)

/-- The hypotheses are met by runs with exit status 0 (without a line), and by one that ends with 1 (with one line of the command after that of
the library): the delta is cut short. The first run is also one in which everything is lost on a full disk, without a message. -/
example :
    (main 2 { space := fun _ => some 0 } { rest := ["decode"], dictionary := "dict", target := "out", delta := "delta" } exampleFiles).toOption.map
      (fun r => (r.status, outputOf r.sys "out")) = some (some 0, []) ∧
    mainLog 2 { space := fun _ => some 0 } { rest := ["decode"], dictionary := "dict", target := "out", delta := "delta" } exampleFiles = [] ∧
    (main 35 {} { rest := ["encode"], dictionary := "dict", target := "target", delta := "out" } exampleFiles).toOption.map
      (fun r => r.status) = some (some 0) ∧
    mainLog 35 {} { rest := ["encode"], dictionary := "dict", target := "target", delta := "out" } exampleFiles = [] ∧
    (main 2 {} { rest := ["decode"], dictionary := "dict", target := "out" } { exampleFiles with stdin := [0xD6, 0xC3, 0xC4, 0] }).toOption.map
      (fun r => r.status) = some (some 1) ∧
    mainLog 2 {} { rest := ["decode"], dictionary := "dict", target := "out" } { exampleFiles with stdin := [0xD6, 0xC3, 0xC4, 0] } =
      [.decoder .incomplete, .own .incomplete] := by
  refine ⟨by decide +kernel, by decide +kernel, by decide +kernel, by decide +kernel, by decide +kernel, by decide +kernel⟩

/-- The hypotheses of `successful_test_silent` are met. -/
example :
    (main 35 {} { rest := ["test"], dictionary := "dict", target := "target", delta := "out" } exampleFiles).toOption.map
      (fun r => r.status) = some (some 0) ∧
    mainLog 35 {} { rest := ["test"], dictionary := "dict", target := "target", delta := "out" } exampleFiles = [] := by
  refine ⟨by decide +kernel, by decide +kernel⟩

/-- Against C82 for the JSON format: an `encode` in that format that succeeds has written errors of the library. -/
theorem json_encode_never_silent (n : Nat) (t : Trouble) (a : Args) (s : System) (r : Cli.Run)
    (hcmd : a.rest = ["encode"] ∨ a.rest = ["delta"]) (hjson : a.flags.json = true) (h : main n t a s = .ok r) (h0 : r.status = some 0) :
    .encoder .jsonDictionary ∈ mainLog n t a s := by
  have hd : a.dictionary ≠ "" := by
    intro hd
    rcases hcmd with hc | hc <;> simp [main, hc, hd] at h <;> simp [← h] at h0
  have hb : a.flags.buffersize ≠ 0 := by
    intro hb
    rcases hcmd with hc | hc <;> simp [main, hc, hd, hb] at h <;> simp [← h] at h0
  rw [main_encode hd hb hcmd] at h
  have e : mainLog n t a s = runEncodeLog n t a { s with stdout := [] } := by
    rcases hcmd with hc | hc <;> simp [mainLog, hc, hd, hb]
  rw [e]
  unfold runEncode at h
  unfold runEncodeLog
  rcases openFilesLog_errors (t := t) { s with stdout := [] } a.flags.buffersize a.dictionary a.target a.delta with ⟨h1, h2⟩ | ⟨⟨e, h1⟩, h2⟩
  · obtain ⟨⟨dict, input, size, sys, out⟩, h2⟩ := Option.isSome_iff_exists.1 h2
    simp only [h1, h2, List.nil_append] at h ⊢
    cases hi : Engine.init dict with
    | error f => simp [hi] at h
    | ok o =>
      cases o with
      | none => simp only [hi, Except.ok.injEq] at h; rw [← h] at h0; simp at h0
      | some engine =>
        dsimp only
        refine List.mem_append_left _ (List.mem_map.2 ⟨.jsonDictionary, ?_, rfl⟩)
        have hf : a.flags.format &&& 4 ≠ 0 := by
          simp only [Cli.Flags.format, hjson]
          cases a.flags.interleaved <;> cases a.flags.checksum <;> decide
        simp [Encoder.callLog, Encoder.startLog, Encoder.new, createWriter, hf]
  · simp only [h2, Except.ok.injEq] at h
    rw [← h] at h0
    simp at h0

/-- The hypotheses are met. -/
example : (main 35 {} { rest := ["encode"], dictionary := "dict", target := "target", delta := "out", flags := { json := true } }
      exampleFiles).toOption.map (fun r => r.status) = some (some 0) ∧
    mainLog 35 {} { rest := ["encode"], dictionary := "dict", target := "target", delta := "out", flags := { json := true } } exampleFiles =
      [.encoder .jsonDictionary, .encoder .jsonTarget] := by
  refine ⟨by decide +kernel, by decide +kernel⟩

end Vcd.Props
