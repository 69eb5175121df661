import Verif.Spec.MainStats
import Verif.Proof.MainStats
import Verif.Props.Main

/-!
# C85: the statistics of the `vcdiff` command are those of its files
-/

namespace Vcd
open Spec Cli

theorem line_eq {original compressed : Nat} (h1 : original < 2 ^ 64) (h2 : compressed < 2 ^ 64) :
    line original original compressed = statisticsOf original compressed := by
  unfold line statisticsOf
  rw [Nat.mod_eq_of_lt h1, Nat.mod_eq_of_lt h2]
  by_cases h : original = 0
  · simp [h]
  · rw [if_pos (by omega), if_neg h]

theorem Spec.Written.all {t : Trouble} {s : System} {name : String} {given : Bytes} (h : Written t s name given)
    (hs : SpaceLeft t name (outputOf s name)) : outputOf s name = given := by
  rcases h with h | ⟨k, h1, h2, _, h4⟩
  · exact h
  · have := hs k h1
    rw [h4, List.length_take] at this
    omega

theorem main_needs {n : Nat} {t : Trouble} {a : Args} {s : System} {r : Cli.Run} (h : main n t a s = .ok r) (h0 : r.status = some 0) :
    a.dictionary ≠ "" ∧ a.flags.buffersize ≠ 0 ∧ (a.rest = ["test"] → ¬ (a.target = "" ∨ a.delta = "")) := by
  refine ⟨?_, ?_, ?_⟩
  · intro hd
    rw [Props.nothing_touched_on_refusal n t a s (Or.inl (fun hp => hp.2.1 hd))] at h
    cases h; cases h0
  · intro hb
    rw [Props.nothing_touched_on_refusal n t a s (Or.inl (fun hp => hp.2.2.1 hb))] at h
    cases h; cases h0
  · intro hc hf
    rw [Props.nothing_touched_on_refusal n t a s (Or.inl (fun hp => by
      have := hp.2.2.2 hc
      rcases hf with hf | hf
      · exact this.1 hf
      · exact this.2 hf))] at h
    cases h; cases h0

theorem mainStats_encode {n : Nat} {t : Trouble} {a : Args} {s : System} (hd : a.dictionary ≠ "") (hb : a.flags.buffersize ≠ 0)
    (hcmd : a.rest = ["encode"] ∨ a.rest = ["delta"]) : mainStats n t a s = runEncodeStats n t a { s with stdout := [] } := by
  rcases hcmd with hc | hc <;> simp [mainStats, hc, hd, hb]

theorem mainStats_decode {n : Nat} {t : Trouble} {a : Args} {s : System} (hd : a.dictionary ≠ "") (hb : a.flags.buffersize ≠ 0)
    (hcmd : a.rest = ["decode"] ∨ a.rest = ["patch"]) : mainStats n t a s = runDecodeStats n t a { s with stdout := [] } := by
  rcases hcmd with hc | hc <;> simp [mainStats, hc, hd, hb]

theorem mainStats_test {n : Nat} {t : Trouble} {a : Args} {s : System} (hd : a.dictionary ≠ "") (hb : a.flags.buffersize ≠ 0)
    (hf : ¬ (a.target = "" ∨ a.delta = "")) (hcmd : a.rest = ["test"]) :
    mainStats n t a s = runEncodeStats n t a { s with stdout := [] } ++
      match runEncode n t a { s with stdout := [] } with
      | .error _ => []
      | .ok r => if r.status = some 0 then runCompareStats n t a r.sys else [] := by
  simp [mainStats, hcmd, hd, hb, hf]
  rfl

namespace Props

/-- C85 for `encode`: exit status 0 with `--stats` gives the sizes of the target and of the delta file; there is one line, and none for an empty target. -/
theorem encode_statistics (n : Nat) (t : Trouble) (a : Args) (s : System) (r : Cli.Run) (hcmd : a.rest = ["encode"] ∨ a.rest = ["delta"])
    (hin : a.target = "" ∨ a.target ≠ a.delta) (h : main n t a s = .ok r) (h0 : r.status = some 0)
    (hs : SpaceLeft t a.delta (outputOf r.sys a.delta)) (hT : (s.input a.target).length < 2 ^ 64) (hD : (outputOf r.sys a.delta).length < 2 ^ 64) :
    mainStats n t a s = statisticsOf (s.input a.target).length (outputOf r.sys a.delta).length := by
  obtain ⟨hd, hb, _⟩ := main_needs h h0
  rw [main_encode hd hb hcmd] at h
  rw [mainStats_encode hd hb hcmd]
  obtain ⟨out, k1, k2, k3, k4, k5⟩ := (runEncodeStats_meaning rfl hin h).2 h0
  have hw := written_of_disk (s := { s with stdout := [] }) k2 k3
  rw [k1, ← k4] at hw
  have e := hw.all hs
  rw [k5, ← e, input_stdout]
  exact line_eq hT hD

/-- C85 for `decode`: exit status 0 with `--stats` gives the sizes of the decoded file and of the delta. -/
theorem decode_statistics (n : Nat) (t : Trouble) (a : Args) (s : System) (r : Cli.Run) (hcmd : a.rest = ["decode"] ∨ a.rest = ["patch"])
    (hin : a.delta = "" ∨ a.delta ≠ a.target) (h : main n t a s = .ok r) (h0 : r.status = some 0)
    (hs : SpaceLeft t a.target (outputOf r.sys a.target)) (hT : (outputOf r.sys a.target).length < 2 ^ 64) (hD : (s.input a.delta).length < 2 ^ 64) :
    mainStats n t a s = statisticsOf (outputOf r.sys a.target).length (s.input a.delta).length := by
  obtain ⟨hd, hb, _⟩ := main_needs h h0
  rw [main_decode hd hb hcmd] at h
  rw [mainStats_decode hd hb hcmd]
  obtain ⟨out, k1, k2, k3, k4, k5⟩ := (runDecodeStats_meaning rfl hin h).2 h0
  have hw := written_of_disk (s := { s with stdout := [] }) k2 k3
  rw [k1, ← k4] at hw
  have e := hw.all hs
  rw [k5, ← e, input_stdout]
  exact line_eq hT hD

/-- C85 for `test`: exit status 0 with `--stats` gives the sizes of target and delta file twice, from the encoder and from the decoder. -/
theorem test_statistics (n : Nat) (t : Trouble) (a : Args) (s : System) (r : Cli.Run) (hcmd : a.rest = ["test"])
    (hin : a.target ≠ a.delta) (h : main n t a s = .ok r) (h0 : r.status = some 0)
    (hs : SpaceLeft t a.delta (outputOf r.sys a.delta)) (hT : (s.input a.target).length < 2 ^ 64) (hD : (outputOf r.sys a.delta).length < 2 ^ 64) :
    mainStats n t a s = statisticsOf (s.input a.target).length (outputOf r.sys a.delta).length ++
      statisticsOf (s.input a.target).length (outputOf r.sys a.delta).length := by
  obtain ⟨hd, hb, hf⟩ := main_needs h h0
  have hf := hf hcmd
  have henc := test_runs_encode n t a s r hcmd h h0
  have h1 := encode_statistics n t { a with rest := ["encode"] } s r (Or.inl rfl) (Or.inr hin) henc h0 hs hT hD
  rw [mainStats_encode (a := { a with rest := ["encode"] }) hd hb (Or.inl rfl)] at h1
  have h1' : runEncodeStats n t a { s with stdout := [] } = statisticsOf (s.input a.target).length (outputOf r.sys a.delta).length := h1
  rw [mainStats_test hd hb hf hcmd, h1']
  congr 1
  have hrun : runEncode n t a { s with stdout := [] } = .ok r := by
    rw [main_encode (a := { a with rest := ["encode"] }) hd hb (Or.inl rfl)] at henc
    exact henc
  rw [main_test hd hb hcmd, if_neg hf, hrun] at h
  simp only [h0, if_true] at h
  simp only [hrun, h0, if_true]
  rw [(runCompareStats_meaning h).2 h0]
  have hin1 : r.sys.input a.target = s.input a.target := by
    rcases runEncode_files rfl hrun with e | ⟨x, e⟩
    · rw [e]; rfl
    · rw [e, System.put_input (Or.inr hin), input_stdout]
  have hin2 : r.sys.input a.delta = outputOf r.sys a.delta := by
    have : a.delta ≠ "" := fun h => hf (Or.inr h)
    simp [System.input, outputOf, this]
  rw [hin1, hin2]
  exact line_eq hT hD

/-- C85: a command that fails or is still running has given no statistics; `test` may have given those of the delta file it has written. -/
theorem no_statistics_of_failures (n : Nat) (t : Trouble) (a : Args) (s : System) (r : Cli.Run)
    (hin : (commandFiles a).all (fun f => f.1 = "" ∨ f.1 ≠ f.2)) (h : main n t a s = .ok r) (h0 : r.status ≠ some 0) :
    mainStats n t a s = [] ∨
      a.rest = ["test"] ∧ ∃ r', main n t { a with rest := ["encode"] } s = .ok r' ∧ r'.status = some 0 ∧
        mainStats n t a s = mainStats n t { a with rest := ["encode"] } s := by
  by_cases hd : a.dictionary = ""
  · left; unfold mainStats; simp only [hd, if_true]; split <;> rfl
  by_cases hb : a.flags.buffersize = 0
  · left; unfold mainStats; simp only [hd, hb, if_true, if_false]; split <;> rfl
  by_cases h1 : a.rest = ["encode"] ∨ a.rest = ["delta"]
  · left
    rw [main_encode hd hb h1] at h
    rw [mainStats_encode hd hb h1]
    rw [commandFiles_encode (by rcases h1 with h1 | h1 <;> simp [h1])] at hin
    exact (runEncodeStats_meaning rfl (by simpa using hin) h).1 h0
  by_cases h2 : a.rest = ["decode"] ∨ a.rest = ["patch"]
  · left
    rw [main_decode hd hb h2] at h
    rw [mainStats_decode hd hb h2]
    rw [commandFiles_decode h2] at hin
    exact (runDecodeStats_meaning rfl (by simpa using hin) h).1 h0
  by_cases h3 : a.rest = ["test"]
  · by_cases hf : a.target = "" ∨ a.delta = ""
    · left; simp [mainStats, h3, hd, hb, hf]
    · have hin' : a.target = "" ∨ a.target ≠ a.delta := by
        rw [commandFiles_encode (Or.inr (Or.inr h3))] at hin
        simpa using hin
      rw [main_test hd hb h3, if_neg hf] at h
      rw [mainStats_test hd hb hf h3]
      cases hr : runEncode n t a { s with stdout := [] } with
      | error f => rw [hr] at h; cases h
      | ok r1 =>
        rw [hr] at h
        simp only at h ⊢
        by_cases hst : r1.status = some 0
        · rw [if_pos hst] at h ⊢
          rw [(runCompareStats_meaning h).1 h0, List.append_nil]
          refine Or.inr ⟨h3, r1, ?_, hst, ?_⟩
          · rw [main_encode (a := { a with rest := ["encode"] }) hd hb (Or.inl rfl)]; exact hr
          · rw [mainStats_encode (a := { a with rest := ["encode"] }) hd hb (Or.inl rfl)]; rfl
        · rw [if_neg hst, List.append_nil]
          exact Or.inl ((runEncodeStats_meaning rfl hin' hr).1 hst)
  · left
    unfold mainStats
    simp only
    split
    · rename_i c hc
      rw [hc] at h1 h2 h3
      simp only [List.cons.injEq, and_true] at h1 h2 h3
      simp only [hd, hb, if_false, h1, h2, h3]
    · rfl

/-- Against C85 without the hypothesis about space: on a full disk the statistics are those of what was to be written (the exit status is 0 all the same,
`full_disk_unnoticed`). -/
theorem statistics_of_lost_output :
    ∃ t : Trouble,
      (main 2 t { rest := ["decode"], dictionary := "dict", target := "out", delta := "delta" } exampleFiles).toOption.map
        (fun r => (r.status, outputOf r.sys "out")) = some (some 0, []) ∧
      mainStats 2 t { rest := ["decode"], dictionary := "dict", target := "out", delta := "delta" } exampleFiles = [⟨1, 16⟩] :=
  ⟨{ space := fun _ => some 0 }, by decide +kernel, by decide +kernel⟩

/-! ## The hypotheses can be met -/

/-- A run of each command on the example files, and one that fails. -/
example :
    mainStats 35 {} { rest := ["encode"], dictionary := "dict", target := "target", delta := "out" } exampleFiles = [⟨33, 17⟩] ∧
    mainStats 17 {} { rest := ["decode"], dictionary := "dict", target := "out", delta := "delta" } exampleFiles = [⟨1, 16⟩] ∧
    mainStats 35 {} { rest := ["test"], dictionary := "dict", target := "target", delta := "out" } exampleFiles = [⟨33, 17⟩, ⟨33, 17⟩] ∧
    mainStats 35 {} { rest := ["decode"], dictionary := "dict", target := "out", delta := "target" } exampleFiles = [] := by
  refine ⟨by decide +kernel, by decide +kernel, by decide +kernel, by decide +kernel⟩

example : (main 35 {} { rest := ["test"], dictionary := "dict", target := "target", delta := "out" } exampleFiles).toOption.map (·.status) = some (some 0) ∧
    SpaceLeft {} "out" [] := by
  refine ⟨by decide +kernel, fun k hk => by cases hk⟩

/-- A failing `test` whose first half has given its statistics: the target can be encoded, but not be decoded within the limit. -/
example :
    (main 35 {} { rest := ["test"], dictionary := "dict", target := "target", delta := "out", flags := { maxTargetWindowSize := 32 } } exampleFiles).toOption.map
      (·.status) = some (some 1) ∧
    mainStats 35 {} { rest := ["test"], dictionary := "dict", target := "target", delta := "out", flags := { maxTargetWindowSize := 32 } } exampleFiles =
      [⟨33, 17⟩] := by
  refine ⟨by decide +kernel, by decide +kernel⟩

end Props
end Vcd
