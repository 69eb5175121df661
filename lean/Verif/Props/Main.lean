import Verif.Proof.MainRun
import Verif.Props.Cli

/-!
# C47 to C51: the `vcdiff` command, its files and its exit status

`main n t a s` is the command with arguments `a`, started on the files `s`, after `n` turns of its loop (or killed then), where
`t` says what goes wrong.
-/

namespace Vcd
open Spec Cli

theorem main_cases {n : Nat} {t : Trouble} {a : Args} {s : System} {r : Cli.Run} (h : main n t a s = .ok r) :
    r = ⟨some 1, { s with stdout := [] }⟩ ∨
    ((a.rest = ["encode"] ∨ a.rest = ["delta"]) ∧ runEncode n t a { s with stdout := [] } = .ok r) ∨
    ((a.rest = ["decode"] ∨ a.rest = ["patch"]) ∧ runDecode n t a { s with stdout := [] } = .ok r) ∨
    (a.rest = ["test"] ∧ ∃ r1, runEncode n t a { s with stdout := [] } = .ok r1 ∧
      (r1.status ≠ some 0 ∧ r = r1 ∨ r1.status = some 0 ∧ runCompare n t a r1.sys = .ok r)) := by
  unfold main at h
  simp only at h
  split at h
  · rename_i c hc
    split at h
    · cases h; exact Or.inl rfl
    · split at h
      · cases h; exact Or.inl rfl
      · split at h
        · rename_i he
          refine Or.inr (Or.inl ⟨?_, h⟩)
          rcases he with he | he <;> rw [hc, he] <;> simp
        · split at h
          · rename_i he
            refine Or.inr (Or.inr (Or.inl ⟨?_, h⟩))
            rcases he with he | he <;> rw [hc, he] <;> simp
          · split at h
            · rename_i he
              split at h
              · cases h; exact Or.inl rfl
              · split at h
                · cases h
                · rename_i r1 hr
                  refine Or.inr (Or.inr (Or.inr ⟨by rw [hc, he], r1, hr, ?_⟩))
                  split at h
                  · rename_i h0; exact Or.inr ⟨h0, h⟩
                  · rename_i h0; cases h; exact Or.inl ⟨h0, rfl⟩
            · cases h; exact Or.inl rfl
  · cases h; exact Or.inl rfl

theorem commandFiles_encode {a : Args} (h : a.rest = ["encode"] ∨ a.rest = ["delta"] ∨ a.rest = ["test"]) :
    commandFiles a = some (a.target, a.delta) := by
  unfold commandFiles
  rw [if_pos h]

theorem commandFiles_decode {a : Args} (h : a.rest = ["decode"] ∨ a.rest = ["patch"]) :
    commandFiles a = some (a.delta, a.target) := by
  unfold commandFiles
  rw [if_neg (by rcases h with h | h <;> rw [h] <;> decide), if_pos h]

theorem main_encode {n : Nat} {t : Trouble} {a : Args} {s : System} (hd : a.dictionary ≠ "") (hf : a.flags.buffersize ≠ 0)
    (h : a.rest = ["encode"] ∨ a.rest = ["delta"]) : main n t a s = runEncode n t a { s with stdout := [] } := by
  unfold main
  rcases h with h | h <;> simp [h, hd, hf]

theorem main_decode {n : Nat} {t : Trouble} {a : Args} {s : System} (hd : a.dictionary ≠ "") (hf : a.flags.buffersize ≠ 0)
    (h : a.rest = ["decode"] ∨ a.rest = ["patch"]) : main n t a s = runDecode n t a { s with stdout := [] } := by
  unfold main
  rcases h with h | h <;> simp [h, hd, hf]

theorem main_test {n : Nat} {t : Trouble} {a : Args} {s : System} (hd : a.dictionary ≠ "") (hf : a.flags.buffersize ≠ 0)
    (h : a.rest = ["test"]) : main n t a s = if a.target = "" ∨ a.delta = "" then .ok ⟨some 1, { s with stdout := [] }⟩
      else match runEncode n t a { s with stdout := [] } with
        | .error f => .error f
        | .ok r => if r.status = some 0 then runCompare n t a r.sys else .ok r := by
  unfold main
  simp only [h, if_neg hd, if_neg hf]
  rw [if_neg (by decide), if_neg (by decide), if_pos trivial]
  rfl

theorem mem_length_le {cs : List Bytes} {c : Bytes} (h : c ∈ cs) : c.length ≤ cs.flatten.length := by
  obtain ⟨x, y, e⟩ := List.append_of_mem h
  rw [e]
  simp only [List.flatten_append, List.flatten_cons, List.length_append]
  omega

/-- The library can encode the target. -/
theorem library_encodes {a : Args} {dict T : Bytes} (hjson : a.flags.json = false) (hfit : WithinFormat a.flags dict T) :
    ∃ engine rep coder, Engine.init dict = .ok (some engine) ∧
      (Encoder.new engine a.flags.format a.flags.targetMatches).call .start = .ok (rep, coder) ∧ rep.ret = true ∧
      ∀ cs : List Bytes, cs.flatten <+: T → (∀ x ∈ cs, x.length ≤ min a.flags.buffersize T.length) →
        ∃ rs e', coder.calls (cs.map .chunk) = .ok (rs, e') ∧ ∀ r ∈ rs, r.ret = true := by
  have hb : a.flags.format &&& 4 = 0 := by
    simp only [Cli.Flags.format, hjson]
    cases a.flags.interleaved <;> cases a.flags.checksum <;> decide
  obtain ⟨engine, window, h1, h2, _⟩ := Props.encoder_protocol dict (by have := hfit.1; omega) a.flags.format hb a.flags.targetMatches
  have key : ∀ cs : List Bytes, (∀ x ∈ cs, x.length ≤ min a.flags.buffersize T.length) →
      ∃ e', (Encoder.new engine a.flags.format a.flags.targetMatches).calls ([.start] ++ cs.map .chunk) =
        .ok (⟨true, Writer.header a.flags.format⟩ :: cs.map (fun c => ⟨true, window c⟩), e') := by
    intro cs hcs
    obtain ⟨e', k⟩ := h2 ([.start] ++ cs.map .chunk) (by
      intro data hm
      simp at hm
      have := hcs data hm
      obtain ⟨f1, f2⟩ := hfit
      exact ⟨by omega, by omega⟩)
    refine ⟨e', ?_⟩
    rw [k]
    have : ∀ l : List Bytes, protocol (Writer.header a.flags.format) window true (l.map .chunk) = l.map (fun c => ⟨true, window c⟩) := by
      intro l
      induction l with
      | nil => rfl
      | cons c l ih => simp only [List.map_cons, protocol, ih]
    simp only [List.singleton_append, protocol, this]
  obtain ⟨e', k⟩ := key [] (by simp)
  simp only [List.map_nil, List.append_nil, Encoder.calls] at k
  cases hs : (Encoder.new engine a.flags.format a.flags.targetMatches).call .start with
  | error x => rw [hs] at k; simp at k
  | ok p =>
    obtain ⟨rep, coder⟩ := p
    rw [hs] at k
    simp only [Except.ok.injEq, Prod.mk.injEq, List.cons.injEq, and_true] at k
    refine ⟨engine, rep, coder, h1, hs, by rw [k.1], ?_⟩
    intro cs _ hcs
    obtain ⟨e2, k2⟩ := key cs hcs
    simp only [List.singleton_append, Encoder.calls, hs] at k2
    cases hc : coder.calls (cs.map .chunk) with
    | error x => rw [hc] at k2; simp at k2
    | ok p =>
      obtain ⟨rs, e3⟩ := p
      rw [hc] at k2
      simp only [Except.ok.injEq, Prod.mk.injEq, List.cons.injEq] at k2
      refine ⟨rs, e3, rfl, ?_⟩
      rw [k2.1.2]
      intro r hr
      simp only [List.mem_map] at hr
      obtain ⟨c, _, rfl⟩ := hr
      rfl

/-- Every division of the target into chunks of at most the buffer size is encoded, to something that decodes to it. -/
theorem library_round_trip {f g : Flags} {dict : Bytes} {chunks : List Bytes} (hjson : f.json = false)
    (hfit : SizesFit f g dict chunks.flatten) (hlen : ∀ c ∈ chunks, c.length ≤ f.buffersize) :
    ∃ delta, Vcd.encode dict f.format f.targetMatches chunks = .ok (some delta) ∧ delta ≠ [] ∧
      ∀ cs : List Bytes, cs.flatten = delta → (configured (cliSettings g)).decode dict cs = some chunks.flatten := by
  obtain ⟨f1, f2, f3, f4⟩ := hfit
  have hb : f.format &&& 4 = 0 := by
    simp only [Cli.Flags.format, hjson]
    cases f.interleaved <;> cases f.checksum <;> decide
  have hm : ∀ c ∈ chunks, c.length ≤ min f.buffersize chunks.flatten.length := by
    intro c hc
    have := hlen c hc
    have := mem_length_le hc
    omega
  have hs : ∀ data ∈ chunks, dict.length + data.length < 2 ^ 31 ∧ data.length + 64 < 2 ^ 31 :=
    fun data hd => ⟨by have := hm data hd; omega, by have := hm data hd; omega⟩
  obtain ⟨delta, d1, d2⟩ := Props.round_trip dict (by omega) f.format hb f.targetMatches chunks hs (cliSettings g)
    (fun data hd => Nat.le_trans (hm data hd) f3) f4
  refine ⟨delta, d1, ?_, d2⟩
  obtain ⟨windows, w1, _⟩ := Props.encode_is_header_and_windows dict (by omega) f.format hb f.targetMatches chunks hs
  rw [d1] at w1
  injection w1 with w1
  injection w1 with w1
  rw [w1]
  intro hc
  have hl := congrArg List.length hc
  have : 0 < (Writer.header f.format).length := by cases hfl : f.format <;> simp [Writer.header]
  simp only [List.length_append, List.length_nil] at hl
  omega

theorem outputOf_put {s : System} {name : String} {x : Bytes} : outputOf (s.put name x) name = x := by
  unfold outputOf System.put
  by_cases h : name = ""
  · simp [h]
  · simp [h]

theorem input_stdout (s : System) (x : Bytes) (name : String) : ({ s with stdout := x } : System).input name = s.input name := rfl

theorem written_of_disk {t : Trouble} {s : System} {out : OutFile} (hp : out.passed = out.given.length)
    (hf : Cli.Fits t out) :
    Written t (s.put out.name (out.disk t)) out.name out.given := by
  unfold Written
  rw [outputOf_put]
  unfold OutFile.disk
  rw [hp]
  cases hs : t.space out.name with
  | none => left; simp
  | some k =>
    by_cases hk : k < out.given.length
    · right; exact ⟨k, rfl, hk, by have := hf k hs; omega, by simp only; rw [Nat.min_eq_right (by omega)]⟩
    · left; simp only; rw [Nat.min_eq_left (by omega), List.take_length]

namespace Props

/-- C47: whatever goes wrong and whenever the command stops, it has changed no file but its output file (none at all if it writes to
standard output), and has written to standard output only if that is its output. -/
theorem only_output_touched (n : Nat) (t : Trouble) (a : Args) (s : System) (r : Cli.Run) (h : main n t a s = .ok r) :
    (∀ name, (commandFiles a).map Prod.snd ≠ some name ∨ name = "" → r.sys.files name = s.files name) ∧
    r.sys.stdin = s.stdin ∧ ((commandFiles a).map Prod.snd ≠ some "" → r.sys.stdout = []) := by
  have key : ∀ (o : String) (x : Bytes), (∀ name, name ≠ o ∨ name = "" → (({ s with stdout := [] } : System).put o x).files name = s.files name) ∧
      (({ s with stdout := [] } : System).put o x).stdin = s.stdin ∧ (o ≠ "" → (({ s with stdout := [] } : System).put o x).stdout = []) := by
    intro o x
    unfold System.put
    by_cases h : o = ""
    · simp [h]
    · simp only [if_neg h]
      refine ⟨?_, trivial, fun _ => trivial⟩
      intro name hn
      rw [if_neg]
      rcases hn with hn | hn
      · exact hn
      · rw [hn]; exact fun e => h e.symm
  have enc : ∀ r1, runEncode n t a { s with stdout := [] } = .ok r1 → commandFiles a = some (a.target, a.delta) →
      (∀ name, (commandFiles a).map Prod.snd ≠ some name ∨ name = "" → r1.sys.files name = s.files name) ∧
      r1.sys.stdin = s.stdin ∧ ((commandFiles a).map Prod.snd ≠ some "" → r1.sys.stdout = []) := by
    intro r1 h1 hc
    rw [hc]
    simp only [Option.map_some, ne_eq, Option.some.injEq]
    rcases runEncode_files rfl h1 with h1 | ⟨x, h1⟩
    · rw [h1]; exact ⟨fun _ _ => rfl, rfl, fun _ => rfl⟩
    · rw [h1]
      obtain ⟨k1, k2, k3⟩ := key a.delta x
      exact ⟨fun name hn => k1 name (hn.imp (fun h e => h e.symm) id), k2, k3⟩
  rcases main_cases h with h | ⟨hc, h⟩ | ⟨hc, h⟩ | ⟨hc, r1, h1, h⟩
  · rw [h]; exact ⟨fun _ _ => rfl, rfl, fun _ => rfl⟩
  · exact enc r h (commandFiles_encode (by rcases hc with hc | hc <;> simp [hc]))
  · rw [commandFiles_decode hc]
    simp only [Option.map_some, ne_eq, Option.some.injEq]
    rcases runDecode_files rfl h with h1 | ⟨x, h1⟩
    · rw [h1]; exact ⟨fun _ _ => rfl, rfl, fun _ => rfl⟩
    · rw [h1]
      obtain ⟨k1, k2, k3⟩ := key a.target x
      exact ⟨fun name hn => k1 name (hn.imp (fun h e => h e.symm) id), k2, k3⟩
  · have := enc r1 h1 (commandFiles_encode (by simp [hc]))
    rcases h with ⟨_, h⟩ | ⟨_, h⟩
    · rw [h]; exact this
    · rw [runCompare_files h]; exact this

/-- C47: if the command line makes no sense, or the dictionary cannot be read, the input not opened or the output not opened, the
exit status is 1 and everything is as it was. -/
theorem nothing_touched_on_refusal (n : Nat) (t : Trouble) (a : Args) (s : System)
    (h : ¬ ProperUsage a ∨ ∃ i o, commandFiles a = some (i, o) ∧ ¬ CanStart t s a.dictionary i o) :
    main n t a s = .ok ⟨some 1, { s with stdout := [] }⟩ := by
  by_cases hd : a.dictionary = ""
  · unfold main
    simp only [hd, if_true]
    split <;> rfl
  by_cases hf : a.flags.buffersize = 0
  · unfold main
    simp only [if_neg hd, hf, if_true]
    split <;> rfl
  cases hc : commandFiles a with
  | none =>
    unfold main
    simp only
    split
    · rename_i c hrest
      rw [if_neg hd, if_neg hf]
      unfold commandFiles at hc
      rw [hrest] at hc
      simp only [List.cons.injEq, and_true] at hc
      split at hc
      · cases hc
      · split at hc
        · cases hc
        · rename_i h1 h2
          rw [if_neg (fun h => h1 (h.imp_right Or.inl)), if_neg h2, if_neg (fun h => h1 (Or.inr (Or.inr h)))]
    · rfl
  | some io =>
    obtain ⟨i, o⟩ := io
    have hbad : ¬ (a.rest = ["test"] → a.target ≠ "" ∧ a.delta ≠ "") ∨ ¬ CanStart t s a.dictionary i o := by
      rcases h with h | ⟨i', o', h1, h2⟩
      · left
        intro h'
        exact h ⟨by rw [hc]; simp, hd, hf, h'⟩
      · right
        rw [hc] at h1
        cases h1
        exact h2
    have henc : ¬ CanStart t s a.dictionary a.target a.delta →
        runEncode n t a { s with stdout := [] } = .ok ⟨some 1, { s with stdout := [] }⟩ := by
      intro hn
      simp only [runEncode, openFiles_none (s := { s with stdout := [] }) hd hn]
    have hdec : ¬ CanStart t s a.dictionary a.delta a.target →
        runDecode n t a { s with stdout := [] } = .ok ⟨some 1, { s with stdout := [] }⟩ := by
      intro hn
      simp only [runDecode, openFiles_none (s := { s with stdout := [] }) hd hn]
    by_cases h1 : a.rest = ["encode"] ∨ a.rest = ["delta"]
    · rw [main_encode hd hf h1]
      rw [commandFiles_encode (h1.imp_right Or.inl)] at hc
      cases hc
      refine henc (hbad.resolve_left ?_)
      rcases h1 with h1 | h1 <;> rw [h1] <;> simp
    by_cases h2 : a.rest = ["decode"] ∨ a.rest = ["patch"]
    · rw [main_decode hd hf h2]
      rw [commandFiles_decode h2] at hc
      cases hc
      refine hdec (hbad.resolve_left ?_)
      rcases h2 with h2 | h2 <;> rw [h2] <;> simp
    by_cases h3 : a.rest = ["test"]
    · rw [commandFiles_encode (Or.inr (Or.inr h3))] at hc
      cases hc
      rw [main_test hd hf h3]
      by_cases h4 : a.target = "" ∨ a.delta = ""
      · rw [if_pos h4]
      · rw [if_neg h4, henc (hbad.resolve_left (fun h => h (fun _ => ⟨fun e => h4 (Or.inl e), fun e => h4 (Or.inr e)⟩)))]
        rfl
    · exfalso
      unfold commandFiles at hc
      rw [if_neg (fun h => by rcases h with h | h | h
                              · exact h1 (Or.inl h)
                              · exact h1 (Or.inr h)
                              · exact h3 h), if_neg h2] at hc
      cases hc

/-- C48 for `decode`: exit status 0 means that the library accepts the delta, and that what it decodes it to is in the output
file. Proved except for an output that does not fit while the C library holds the rest of it back to the end: then its first part is
there (`full_disk_unnoticed`). If nothing is held back (`t.passed n = n`), there is no exception. -/
theorem decode_status_zero_partial (n : Nat) (t : Trouble) (a : Args) (s : System) (r : Cli.Run)
    (hcmd : a.rest = ["decode"] ∨ a.rest = ["patch"]) (hin : a.delta = "" ∨ a.delta ≠ a.target)
    (h : main n t a s = .ok r) (h0 : r.status = some 0) :
    ∃ dict chunks T, s.files a.dictionary = some dict ∧ chunks.flatten = s.input a.delta ∧
      (configured (cliSettings a.flags)).decode dict chunks = some T ∧ Written t r.sys a.target T := by
  rcases main_cases h with h | ⟨hc, h⟩ | ⟨hc, h⟩ | ⟨hc, r1, h1, h⟩
  · rw [h] at h0; cases h0
  · rcases hc with hc | hc <;> rcases hcmd with h2 | h2 <;> rw [hc] at h2 <;> simp at h2
  · rcases runDecode_meaning rfl hin h with h | ⟨dict, out, cs, d, k1, k2, k3, k4, k5, k6⟩
    · rw [h] at h0; cases h0
    · obtain ⟨j1, j2, j3, j4⟩ := k6 h0
      refine ⟨dict, cs, out.given, k1, j1, ?_, ?_⟩
      · simp only [Decoder.decode, k5, j2, if_true]
      · rw [k3, ← k2]; exact written_of_disk j3 j4
  · rcases hcmd with h2 | h2 <;> rw [hc] at h2 <;> simp at h2

/-- C48 for `encode`: exit status 0 means that the output file holds the library's delta for the target, cut after every `buffersize`
bytes, with the same exception. -/
theorem encode_status_zero_partial (n : Nat) (t : Trouble) (a : Args) (s : System) (r : Cli.Run)
    (hcmd : a.rest = ["encode"] ∨ a.rest = ["delta"]) (hin : a.target = "" ∨ a.target ≠ a.delta)
    (h : main n t a s = .ok r) (h0 : r.status = some 0) :
    ∃ dict chunks delta, s.files a.dictionary = some dict ∧ chunks.flatten = s.input a.target ∧
      CutEvery a.flags.buffersize chunks ∧
      Vcd.encode dict (cliFormat a.flags) a.flags.targetMatches chunks = .ok (some delta) ∧ Written t r.sys a.delta delta := by
  rcases main_cases h with h | ⟨hc, h⟩ | ⟨hc, h⟩ | ⟨hc, r1, h1, h⟩
  · rw [h] at h0; cases h0
  · rcases runEncode_meaning rfl hin h with h | ⟨dict, out, cs, k1, k2, k3, k4, k5, _, k6⟩
    · rw [h] at h0; cases h0
    · obtain ⟨j1, j5, j2, j4, j3⟩ := k6 h0
      refine ⟨dict, cs, out.given, k1, j1, j5, ?_, ?_⟩
      · rw [cliFormat_eq]; exact j3
      · rw [k3, ← k2]; exact written_of_disk j2 j4
  · rcases hc with hc | hc <;> rcases hcmd with h2 | h2 <;> rw [hc] at h2 <;> simp at h2
  · rcases hcmd with h2 | h2 <;> rw [hc] at h2 <;> simp at h2

/-- C49 for `decode`: at whatever time the command is killed or gives up, the output file holds a prefix of the right target (or
the command has not touched it). -/
theorem interrupted_decode (n : Nat) (t : Trouble) (a : Args) (s : System) (r : Cli.Run)
    (hcmd : a.rest = ["decode"] ∨ a.rest = ["patch"]) (hin : a.delta = "" ∨ a.delta ≠ a.target) (T : Bytes)
    (hT : ∀ dict chunks, s.files a.dictionary = some dict → chunks.flatten = s.input a.delta →
      (configured (cliSettings a.flags)).decode dict chunks = some T)
    (h : main n t a s = .ok r) :
    r = ⟨some 1, { s with stdout := [] }⟩ ∨ outputOf r.sys a.target <+: T := by
  rcases main_cases h with h | ⟨hc, h⟩ | ⟨hc, h⟩ | ⟨hc, r1, h1, h⟩
  · exact Or.inl h
  · rcases hc with hc | hc <;> rcases hcmd with h2 | h2 <;> rw [hc] at h2 <;> simp at h2
  · rcases runDecode_meaning rfl hin h with h | ⟨dict, out, cs, d, k1, k2, k3, ⟨rest, k4⟩, k5, _⟩
    · exact Or.inl h
    · right
      rw [input_stdout] at k4
      have := hT dict (cs ++ [rest]) k1 (by simpa using k4)
      simp only [Decoder.decode] at this
      cases hf : ((configured (cliSettings a.flags)).start dict).feed (cs ++ [rest]) with
      | none => rw [hf] at this; simp at this
      | some q =>
        rw [hf] at this
        simp only at this
        split at this
        · simp only [Option.some.injEq] at this
          obtain ⟨d1, o1, o2, j1, _, j3⟩ := feed_append.1 hf
          rw [k5] at j1
          simp only [Option.some.injEq, Prod.mk.injEq] at j1
          rw [k3, outputOf_put, ← this, j3, ← j1.1]
          exact List.IsPrefix.trans (OutFile.disk_prefix t out) (List.prefix_append _ _)
        · cases this
  · rcases hcmd with h2 | h2 <;> rw [hc] at h2 <;> simp at h2

/-- C49 for `encode`: at whatever time the command is killed or gives up, the output file holds a prefix of a delta that decodes to the target
(or the command has not touched it). -/
theorem interrupted_encode (n : Nat) (t : Trouble) (a : Args) (s : System) (r : Cli.Run)
    (hcmd : a.rest = ["encode"] ∨ a.rest = ["delta"]) (hin : a.target = "" ∨ a.target ≠ a.delta) (hjson : a.flags.json = false)
    (g : Flags) (dict : Bytes) (hdict : s.files a.dictionary = some dict) (hfit : SizesFit a.flags g dict (s.input a.target))
    (h : main n t a s = .ok r) :
    r = ⟨some 1, { s with stdout := [] }⟩ ∨ ∃ delta, outputOf r.sys a.delta <+: delta ∧
      ∀ chunks, chunks.flatten = delta → (configured (cliSettings g)).decode dict chunks = some (s.input a.target) := by
  by_cases hbuf : a.flags.buffersize = 0
  · left
    rw [nothing_touched_on_refusal n t a s (Or.inl (fun hp => hp.2.2.1 hbuf))] at h
    cases h
    rfl
  rcases main_cases h with h | ⟨hc, h⟩ | ⟨hc, h⟩ | ⟨hc, r1, h1, h⟩
  · exact Or.inl h
  · rcases runEncode_meaning rfl hin h with h | ⟨dict', out, cs, k1, k2, k3, ⟨rest, k4⟩, k5, k6, _⟩
    · exact Or.inl h
    · right
      have hdd : dict' = dict := by
        have : s.files a.dictionary = some dict' := k1
        rw [hdict] at this
        injection this with this
        exact this.symm
      subst hdd
      rw [input_stdout] at k4
      have hpos : 0 < a.flags.buffersize := by omega
      have hflat : (cs ++ pieces a.flags.buffersize rest.length rest).flatten = s.input a.target := by
        rw [List.flatten_append, pieces_flatten hpos (Nat.le_refl _), k4]
      obtain ⟨delta, d1, _, d2⟩ := library_round_trip (f := a.flags) (g := g) (dict := dict')
        (chunks := cs ++ pieces a.flags.buffersize rest.length rest) hjson (by rw [hflat]; exact hfit)
        (fun c hc => by
          rcases List.mem_append.1 hc with hc | hc
          · exact k5 c hc
          · have := pieces_length hc; omega)
      rw [hflat] at d2
      refine ⟨delta, ?_, d2⟩
      rw [k3, outputOf_put]
      refine List.IsPrefix.trans (OutFile.disk_prefix t out) ?_
      rcases k6 with k6 | ⟨engine, calls, rs, e, l1, l2, l3, l4⟩
      · rw [k6]; exact List.nil_prefix
      · refine List.IsPrefix.trans l4 ?_
        simp only [Vcd.encode, l1] at d1
        split at d1
        · cases d1
        · rename_i rs' e' hall
          simp only [Except.ok.injEq] at d1
          split at d1
          · simp only [Option.some.injEq] at d1
            rw [← d1]
            have hsplit : ∃ more, [.start] ++ (cs ++ pieces a.flags.buffersize rest.length rest).map EncoderCall.chunk ++ [.finish] =
                calls ++ more := by
              rcases l2 with l2 | ⟨l2, l2'⟩
              · exact ⟨_, by rw [l2, List.map_append]; simp only [List.append_assoc]; rfl⟩
              · have hrest : rest = [] := by
                  rw [input_stdout] at l2
                  rw [l2] at k4
                  simpa using k4
                exact ⟨[], by rw [l2', hrest, pieces_nil]; simp⟩
            obtain ⟨more, hmore⟩ := hsplit
            rw [hmore] at hall
            obtain ⟨rs1, e1, rs2, m1, _, m3⟩ := Encoder.calls_append hall
            rw [l3] at m1
            simp only [Except.ok.injEq, Prod.mk.injEq] at m1
            rw [m3, ← m1.1, List.flatMap_append]
            exact List.prefix_append _ _
          · cases d1
  · rcases hc with hc | hc <;> rcases hcmd with h2 | h2 <;> rw [hc] at h2 <;> simp at h2
  · rcases hcmd with h2 | h2 <;> rw [hc] at h2 <;> simp at h2

/-- C50: if nothing goes wrong, `encode` ends with exit status 0 after finitely many turns, and the output holds the library's delta. -/
theorem encode_completes (n : Nat) (t : Trouble) (a : Args) (s : System) (hcmd : a.rest = ["encode"] ∨ a.rest = ["delta"])
    (hd : a.dictionary ≠ "") (hbuf : a.flags.buffersize ≠ 0) (hin : a.target = "" ∨ a.target ≠ a.delta)
    (hjson : a.flags.json = false) (hc : CanStart t s a.dictionary a.target a.delta) (hr : RunsSmoothly t s a.target a.delta)
    (g : Flags) (dict : Bytes) (hdict : s.files a.dictionary = some dict) (hfit : SizesFit a.flags g dict (s.input a.target))
    (hn : (s.input a.target).length < n) :
    ∃ delta, main n t a s = .ok ⟨some 0, ({ s with stdout := [] } : System).put a.delta delta⟩ ∧ delta ≠ [] ∧
      ∀ chunks, chunks.flatten = delta → (configured (cliSettings g)).decode dict chunks = some (s.input a.target) := by
  obtain ⟨r, h1, h2⟩ := runEncode_ok (t := t) (n := n) (a := a) (s := { s with stdout := [] }) rfl hd hbuf hin hc hr
    (fun d hdd => by
      have : d = dict := by
        have : s.files a.dictionary = some d := hdd
        rw [hdict] at this
        injection this with this
        exact this.symm
      subst this
      exact library_encodes hjson ⟨hfit.1, hfit.2.1⟩) hn
  rw [main_encode hd hbuf hcmd, h1]
  rcases runEncode_meaning rfl hin h1 with h | ⟨dict', out, cs, k1, k2, k3, _, k5, _, k7⟩
  · rw [h] at h2; cases h2
  · obtain ⟨j1, _, j2, _, j3⟩ := k7 h2
    have hdd : dict' = dict := by
      have : s.files a.dictionary = some dict' := k1
      rw [hdict] at this
      injection this with this
      exact this.symm
    subst hdd
    rw [input_stdout] at j1
    obtain ⟨delta, d1, d2, d3⟩ := library_round_trip (f := a.flags) (g := g) (dict := dict') (chunks := cs) hjson
      (by rw [j1]; exact hfit) k5
    rw [j3] at d1
    simp only [Except.ok.injEq, Option.some.injEq] at d1
    refine ⟨delta, ?_, d2, by rw [← j1]; exact d3⟩
    obtain ⟨st, sys⟩ := r
    simp only at h2 k3
    rw [h2, k3, disk_all k2 hr.2.1 d1 (by rw [j2, d1])]

/-- C50: if nothing goes wrong, `decode` ends with exit status 0 after finitely many turns, and the output holds the target. -/
theorem decode_completes (n : Nat) (t : Trouble) (a : Args) (s : System) (hcmd : a.rest = ["decode"] ∨ a.rest = ["patch"])
    (hd : a.dictionary ≠ "") (hbuf : a.flags.buffersize ≠ 0) (hin : a.delta = "" ∨ a.delta ≠ a.target)
    (hc : CanStart t s a.dictionary a.delta a.target) (hr : RunsSmoothly t s a.delta a.target) (T : Bytes)
    (hT : ∀ dict chunks, s.files a.dictionary = some dict → chunks.flatten = s.input a.delta →
      (configured (cliSettings a.flags)).decode dict chunks = some T)
    (hn : (s.input a.delta).length < n) :
    main n t a s = .ok ⟨some 0, ({ s with stdout := [] } : System).put a.target T⟩ := by
  rw [main_decode hd hbuf hcmd]
  exact runDecode_ok (s := { s with stdout := [] }) rfl hd hbuf hin hc hr hT hn

/-- C50: the round trip through the command. `encode` is run on the files `s`, and `decode` later, with other flags, on files `s'` where the
dictionary has the same contents and its input is what `encode` has output (a file, or through a pipe). If nothing goes wrong in the
two runs, both end with exit status 0, and the output of the second is the target that was the input of the first. -/
theorem command_round_trip (a b : Args) (s s' : System) (t t' : Trouble) (hcmd : a.rest = ["encode"] ∨ a.rest = ["delta"])
    (hcmd' : b.rest = ["decode"] ∨ b.rest = ["patch"])
    (hd : a.dictionary ≠ "" ∧ b.dictionary ≠ "") (hbuf : a.flags.buffersize ≠ 0 ∧ b.flags.buffersize ≠ 0)
    (hin : a.target = "" ∨ a.target ≠ a.delta) (hin' : b.delta = "" ∨ b.delta ≠ b.target) (hjson : a.flags.json = false)
    (hc : CanStart t s a.dictionary a.target a.delta) (hr : RunsSmoothly t s a.target a.delta)
    (dict : Bytes) (hdict : s.files a.dictionary = some dict) (hfit : SizesFit a.flags b.flags dict (s.input a.target))
    (n : Nat) (hn : (s.input a.target).length < n) :
    ∃ r, main n t a s = .ok r ∧ r.status = some 0 ∧
      (s'.files b.dictionary = some dict → s'.input b.delta = outputOf r.sys a.delta →
        CanStart t' s' b.dictionary b.delta b.target → t'.damage b.delta = none → t'.space b.target = none →
        ∀ n', (s'.input b.delta).length < n' →
          ∃ r', main n' t' b s' = .ok r' ∧ r'.status = some 0 ∧ outputOf r'.sys b.target = s.input a.target) := by
  obtain ⟨delta, h1, h2, h3⟩ := encode_completes n t a s hcmd hd.1 hbuf.1 hin hjson hc hr b.flags dict hdict hfit hn
  refine ⟨_, h1, rfl, ?_⟩
  intro e1 e2 e3 e4 e5 n' hn'
  rw [outputOf_put] at e2
  refine ⟨_, decode_completes n' t' b s' hcmd' hd.2 hbuf.2 hin' e3 ⟨e4, e5, Or.inr (by rw [e2]; exact h2)⟩ (s.input a.target) ?_ hn',
    rfl, outputOf_put⟩
  intro d cs hdd hcs
  rw [e1] at hdd
  injection hdd with hdd
  rw [← hdd]
  exact h3 cs (by rw [hcs, e2])

/-- C51: whatever goes wrong, and even if files coincide, exit status 0 of `test` means that the delta file, as it
is on the disk in the end, is decoded by the library, with the dictionary as it is then, to the contents of the target file. -/
theorem test_status_zero (n : Nat) (t : Trouble) (a : Args) (s : System) (r : Cli.Run) (hcmd : a.rest = ["test"])
    (h : main n t a s = .ok r) (h0 : r.status = some 0) :
    ∃ dict chunks, r.sys.files a.dictionary = some dict ∧ chunks.flatten = r.sys.input a.delta ∧
      (configured (cliSettings a.flags)).decode dict chunks = some (r.sys.input a.target) := by
  rcases main_cases h with h | ⟨hc, h⟩ | ⟨hc, h⟩ | ⟨hc, r1, h1, ⟨h2, h⟩ | ⟨h2, h⟩⟩
  · rw [h] at h0; cases h0
  · rcases hc with hc | hc <;> rw [hc] at hcmd <;> simp at hcmd
  · rcases hc with hc | hc <;> rw [hc] at hcmd <;> simp at hcmd
  · rw [h] at h0; exact absurd h0 h2
  · rw [runCompare_files h]
    exact runCompare_meaning h h0

/-- C51: exit status 0 of `test` also means that `encode` would have ended with exit status 0 and the same files, so that
`encode_status_zero_partial` says what is in the delta file. -/
theorem test_runs_encode (n : Nat) (t : Trouble) (a : Args) (s : System) (r : Cli.Run) (hcmd : a.rest = ["test"])
    (h : main n t a s = .ok r) (h0 : r.status = some 0) : main n t { a with rest := ["encode"] } s = .ok r := by
  have hd : a.dictionary ≠ "" := by
    intro hd
    rw [nothing_touched_on_refusal n t a s (Or.inl (fun hp => hp.2.1 hd))] at h
    cases h; cases h0
  have hb : a.flags.buffersize ≠ 0 := by
    intro hb
    rw [nothing_touched_on_refusal n t a s (Or.inl (fun hp => hp.2.2.1 hb))] at h
    cases h; cases h0
  rw [main_encode (a := { a with rest := ["encode"] }) hd hb (Or.inl rfl)]
  rcases main_cases h with h | ⟨hc, h⟩ | ⟨hc, h⟩ | ⟨hc, r1, h1, ⟨h2, h⟩ | ⟨h2, h⟩⟩
  · rw [h] at h0; cases h0
  · rcases hc with hc | hc <;> rw [hc] at hcmd <;> simp at hcmd
  · rcases hc with hc | hc <;> rw [hc] at hcmd <;> simp at hcmd
  · rw [h] at h0; exact absurd h0 h2
  · have hs := runCompare_files h
    have : r = r1 := by
      cases r; cases r1
      simp only at h0 h2 hs
      rw [h0, h2, hs]
    rw [this]
    exact h1

/-- Once the command has ended, its exit status and the files do not change any more: the number of turns matters only for a
run that is killed. -/
theorem ended_is_final (n m : Nat) (t : Trouble) (a : Args) (s : System) (r : Cli.Run) (hnm : n ≤ m)
    (h : main n t a s = .ok r) (hr : r.status ≠ none) : main m t a s = .ok r := by
  unfold main at h ⊢
  simp only at h ⊢
  split at h
  · split at h
    · rename_i hd; rw [if_pos hd]; exact h
    · rename_i hd
      rw [if_neg hd]
      split at h
      · rename_i hb; rw [if_pos hb]; exact h
      · rename_i hb
        rw [if_neg hb]
        split at h
        · rename_i hc; rw [if_pos hc]; exact runEncode_mono hnm h hr
        · rename_i hc
          rw [if_neg hc]
          split at h
          · rename_i hc2; rw [if_pos hc2]; exact runDecode_mono hnm h hr
          · rename_i hc2
            rw [if_neg hc2]
            split at h
            · rename_i hc3
              rw [if_pos hc3]
              split at h
              · rename_i he; rw [if_pos he]; exact h
              · rename_i he
                rw [if_neg he]
                split at h
                · cases h
                · rename_i r1 h1
                  split at h
                  · rename_i h0
                    rw [runEncode_mono hnm h1 (by rw [h0]; simp)]
                    simp only [h0, if_true]
                    exact runCompare_mono hnm h hr
                  · rename_i h0
                    cases h
                    rw [runEncode_mono hnm h1 hr]
                    simp only [if_neg h0]
            · rename_i hc3; rw [if_neg hc3]; exact h
  · exact h

/-- C51: if nothing goes wrong, and the delta file is neither the dictionary nor the target, `test` ends with exit status 0. -/
theorem test_completes (t : Trouble) (a : Args) (s : System) (hcmd : a.rest = ["test"])
    (hd : a.dictionary ≠ "") (hbuf : a.flags.buffersize ≠ 0)
    (hnames : a.target ≠ "" ∧ a.delta ≠ "" ∧ a.target ≠ a.delta ∧ a.dictionary ≠ a.delta)
    (hjson : a.flags.json = false) (hc : CanStart t s a.dictionary a.target a.delta) (hr : RunsSmoothly t s a.target a.delta)
    (hback : t.noRead a.delta = false ∧ t.noSeek a.delta = false ∧ t.damage a.delta = none)
    (dict : Bytes) (hdict : s.files a.dictionary = some dict) (hfit : SizesFit a.flags a.flags dict (s.input a.target)) :
    ∃ N delta, ∀ n, N ≤ n → main n t a s = .ok ⟨some 0, ({ s with stdout := [] } : System).put a.delta delta⟩ := by
  obtain ⟨n1, n2, n3, n4⟩ := hnames
  let b : Args := { a with rest := ["encode"] }
  have henc : ∀ n, main n t b s = runEncode n t a { s with stdout := [] } := by
    intro n
    rw [main_encode (a := b) hd hbuf (Or.inl rfl)]
    rfl
  obtain ⟨delta, h1, h2, h3⟩ := encode_completes ((s.input a.target).length + 1) t b s (Or.inl rfl) hd hbuf (Or.inr n3) hjson
    hc hr a.flags dict hdict hfit (Nat.lt_succ_self _)
  rw [henc] at h1
  refine ⟨(s.input a.target).length + 1 + (delta.length + 1), delta, fun n hn => ?_⟩
  have h1' := runEncode_mono (m := n) (by omega) h1 (by simp)
  rw [main_test hd hbuf hcmd, if_neg (by simp [n1, n2]), h1']
  simp only [if_true]
  have hput : ∀ x, x ≠ a.delta → (({ s with stdout := [] } : System).put a.delta delta).files x = s.files x :=
    fun x hx => System.put_files_ne hx
  have hdelta : (({ s with stdout := [] } : System).put b.delta delta).input a.delta = delta := by
    have := outputOf_put (s := { s with stdout := [] }) (name := a.delta) (x := delta)
    simp only [outputOf, if_neg n2] at this
    simp only [System.input, if_neg n2]
    exact this
  have htarget : (({ s with stdout := [] } : System).put b.delta delta).input a.target = s.input a.target := by
    simp only [System.input, if_neg n1]
    rw [System.put_files_ne n3]
  have hdicti : (({ s with stdout := [] } : System).put b.delta delta).input a.dictionary = s.input a.dictionary := by
    simp only [System.input, if_neg hd]
    rw [System.put_files_ne n4]
  obtain ⟨c1, c2, c3, _⟩ := hc
  refine runCompare_ok hd hbuf ?_ ?_ (Or.inr ?_) (Or.inr ?_) hback.2.2 hr.1 (Or.inr (by rw [hdelta]; exact h2)) ?_ (by rw [hdelta]; omega)
  · exact ⟨by rw [System.put_files_ne n4]; exact c1.1, c1.2⟩
  · rw [hdicti]; exact c2
  · refine ⟨?_, hback.1, hback.2.1⟩
    show ((({ s with stdout := [] } : System).put a.delta delta).files a.delta).isSome = true
    simp only [System.put, if_neg n2, if_true, Option.isSome]
  · have := c3.resolve_left n1
    exact ⟨by rw [System.put_files_ne n3]; exact this.1, this.2⟩
  · intro d cs hdd hcs
    rw [hdelta] at hcs
    rw [htarget]
    have hdd' : s.files a.dictionary = some d := by
      rw [System.put_files_ne n4] at hdd
      exact hdd
    rw [hdict] at hdd'
    injection hdd' with hdd'
    rw [← hdd']
    exact h3 cs hcs

/-- The files of the examples: a dictionary, a target that occurs in it, a delta for the target `a`. -/
def exampleFiles : System :=
  { files := fun x =>
      if x = "dict" then some (List.replicate 40 0x61 ++ List.replicate 40 0x62)
      else if x = "target" then some (List.replicate 33 0x61)
      else if x = "delta" then some ([0xD6, 0xC3, 0xC4, 0, 0, 1, 80, 0, 7, 1, 0, 1, 1, 0, 0x61, 2] : Bytes)
      else none }

/-- Against C48 without its exception: nobody looks at the result of `fclose`. On a disk with no space left, the exit status is 0
and the output file is empty, although the delta is that of the target `a`. -/
theorem full_disk_unnoticed :
    ∃ t : Trouble,
      (main 2 t { rest := ["decode"], dictionary := "dict", target := "out", delta := "delta" } exampleFiles).toOption.map
        (fun r => (r.status, outputOf r.sys "out")) = some (some 0, []) ∧
      (configured (cliSettings {})).decode ((exampleFiles.files "dict").getD []) [exampleFiles.input "delta"] = some [0x61] :=
  ⟨{ space := fun _ => some 0 }, by decide +kernel, by decide +kernel⟩

/-- Against C47 if files coincide: `decode` with the delta file as its output loses it. Whatever the delta is, it is cut to length 0 before it is
read, the exit status is 0, and the file is empty. -/
theorem decode_in_place_destroys (n : Nat) (t : Trouble) (a : Args) (s : System) (hcmd : a.rest = ["decode"] ∨ a.rest = ["patch"])
    (hd : a.dictionary ≠ "") (hbuf : a.flags.buffersize ≠ 0) (hsame : a.target = a.delta) (hname : a.delta ≠ "")
    (hc : CanStart t s a.dictionary a.delta a.delta) (hne : s.input a.delta ≠ []) (hn : 0 < n) :
    main n t a s = .ok ⟨some 0, ({ s with stdout := [] } : System).put a.delta []⟩ := by
  rw [main_decode hd hbuf hcmd]
  obtain ⟨dict, size, h1, h2, h3⟩ := openFiles_ok (s := { s with stdout := [] }) (flag := a.flags.buffersize) rfl hd hc
  have hsize : 0 < size := by
    rcases h3 with ⟨h, _⟩ | ⟨_, h⟩
    · exact absurd h hname
    · have := List.length_pos_iff.2 hne
      rw [input_stdout] at h
      omega
  have hempty : (({ s with stdout := [] } : System).put a.delta []).input a.delta = [] := by
    have := outputOf_put (s := { s with stdout := [] }) (name := a.delta) (x := [])
    simp only [outputOf, if_neg hname] at this
    simp only [System.input, if_neg hname]
    exact this
  have hread : ({ name := a.delta } : InFile).fread t (({ s with stdout := [] } : System).put a.delta []) size =
      some ([], { name := a.delta, offset := 0, eof := true }) := by
    have hbad : ({ name := a.delta } : InFile).bad t (({ s with stdout := [] } : System).put a.delta []) size = false := by
      unfold InFile.bad
      rw [hempty]
      split
      · rfl
      · simp
    simp only [InFile.fread, hbad, Bool.false_eq_true, if_false, hempty, List.drop_nil, List.take_nil, List.length_nil, hsize,
      decide_true, Bool.or_true, Nat.add_zero]
  obtain ⟨n, rfl⟩ : ∃ m, n = m + 1 := ⟨n - 1, by omega⟩
  simp only [runDecode, hsame, h2, turns, decodeTurn, hread, if_true, Stage.again, endDecode]
  have hfin : (decoder a.flags dict).finish.1 = true := by
    rw [decoder_eq]
    rfl
  rw [hfin]
  simp only [if_true]
  rw [closeOutput_at (base := { s with stdout := [] }) (o := a.delta) rfl rfl]
  simp only [List.length_nil, disk_nil]

/-- Against C47 if files coincide: `encode` with the target file as its output loses the target, here for a C library that keeps back so little output.
Whatever the target is, the exit status is 0, and the file holds only the header of a delta, as for an empty target. -/
theorem encode_in_place_destroys (n : Nat) (t : Trouble) (a : Args) (s : System) (hcmd : a.rest = ["encode"] ∨ a.rest = ["delta"])
    (hd : a.dictionary ≠ "") (hbuf : a.flags.buffersize ≠ 0) (hsame : a.target = a.delta) (hname : a.delta ≠ "")
    (hjson : a.flags.json = false) (hheld : t.passed 5 = 0) (hspace : t.space a.delta = none)
    (dict : Bytes) (hdict : s.files a.dictionary = some dict) (hlen : dict.length < 2 ^ 31)
    (hc : CanStart t s a.dictionary a.delta a.delta) (hne : s.input a.delta ≠ []) (hn : 0 < n) :
    main n t a s = .ok ⟨some 0, ({ s with stdout := [] } : System).put a.delta
      [0xD6, 0xC3, 0xC4, if a.flags.interleaved || a.flags.checksum then 0x53 else 0, 0]⟩ := by
  rw [main_encode hd hbuf hcmd]
  obtain ⟨dict', size, h1, h2, h3⟩ := openFiles_ok (s := { s with stdout := [] }) (flag := a.flags.buffersize) rfl hd hc
  have hdd : dict' = dict := by
    have : s.files a.dictionary = some dict' := h1
    rw [hdict] at this
    injection this with this
    exact this.symm
  subst hdd
  have hsize : 0 < size := by
    rcases h3 with ⟨h, _⟩ | ⟨_, h⟩
    · exact absurd h hname
    · have := List.length_pos_iff.2 hne
      rw [input_stdout] at h
      omega
  have hempty : (({ s with stdout := [] } : System).put a.delta []).input a.delta = [] := by
    have := outputOf_put (s := { s with stdout := [] }) (name := a.delta) (x := [])
    simp only [outputOf, if_neg hname] at this
    simp only [System.input, if_neg hname]
    exact this
  have hread : ({ name := a.delta } : InFile).fread t (({ s with stdout := [] } : System).put a.delta []) size =
      some ([], { name := a.delta, offset := 0, eof := true }) := by
    have hbad : ({ name := a.delta } : InFile).bad t (({ s with stdout := [] } : System).put a.delta []) size = false := by
      unfold InFile.bad
      rw [hempty]
      split
      · rfl
      · simp
    simp only [InFile.fread, hbad, Bool.false_eq_true, if_false, hempty, List.drop_nil, List.take_nil, List.length_nil, hsize,
      decide_true, Bool.or_true, Nat.add_zero]
  have hb : a.flags.format &&& 4 = 0 := by
    simp only [Cli.Flags.format, hjson]
    cases a.flags.interleaved <;> cases a.flags.checksum <;> decide
  have hheader : Writer.header a.flags.format =
      [0xD6, 0xC3, 0xC4, if a.flags.interleaved || a.flags.checksum then 0x53 else 0, 0] := by
    simp only [Cli.Flags.format, hjson]
    cases a.flags.interleaved <;> cases a.flags.checksum <;> rfl
  obtain ⟨engine, window, e1, e2, _⟩ := encoder_protocol dict' hlen a.flags.format hb a.flags.targetMatches
  obtain ⟨e', k⟩ := e2 [.start, .finish] (by intro data hm; simp at hm)
  rw [← hheader]
  generalize hH : Writer.header a.flags.format = H at *
  have hHlen : H.length = 5 := by rw [hheader]; rfl
  have hHne : H ≠ [] := by intro e; rw [e] at hHlen; cases hHlen
  simp only [Encoder.calls, protocol] at k
  cases hs : (Encoder.new engine a.flags.format a.flags.targetMatches).call .start with
  | error x => rw [hs] at k; simp at k
  | ok p =>
    obtain ⟨r, e⟩ := p
    rw [hs] at k
    simp only at k
    cases hf : e.call .finish with
    | error x => rw [hf] at k; simp at k
    | ok p =>
      obtain ⟨rf, ef⟩ := p
      rw [hf] at k
      simp only [Except.ok.injEq, Prod.mk.injEq, List.cons.injEq, and_true] at k
      obtain ⟨⟨kr, kf⟩, _⟩ := k
      subst kr; subst kf
      obtain ⟨n, rfl⟩ : ∃ m, n = m + 1 := ⟨n - 1, by omega⟩
      have hw : writeOutput t (({ s with stdout := [] } : System).put a.delta []) { name := a.delta } H =
          (({ s with stdout := [] } : System).put a.delta [], { name := a.delta, given := H, passed := 0 }, true) := by
        simp only [writeOutput, if_neg hHne, List.nil_append, hHlen, hheld, OutFile.disk, OutFile.full, hspace, System.put_put]
        simp
      have hturn : turns (encodeTurn t size) (n + 1) (Stage.mk (({ s with stdout := [] } : System).put a.delta [])
          { name := a.delta } e H { name := a.delta }) = .ok (.last (Stage.mk (({ s with stdout := [] } : System).put a.delta [])
            { name := a.delta, offset := 0, eof := true } e [] { name := a.delta, given := H, passed := 0 })) := by
        simp only [turns, encodeTurn, hw, Bool.true_eq_false, if_false, hread, if_true, Stage.again]
      simp only [runEncode, hsame, h2, e1, hs, Bool.true_eq_false, if_false, hturn]
      simp only [endEncode, hf, List.append_nil, writeOutput, if_true]
      rw [closeOutput_at (base := { s with stdout := [] }) (o := a.delta) rfl rfl]
      simp only [OutFile.disk, hspace, List.take_length]

/-- The hypotheses of `encode_completes`, `command_round_trip`, `test_completes` and `encode_in_place_destroys` are met by the example
files (for the last one with the target as output). -/
example : let t : Trouble := {}
    let s := exampleFiles
    CanStart t s "dict" "target" "out" ∧ RunsSmoothly t s "target" "out" ∧
    SizesFit {} {} ((s.files "dict").getD []) (s.input "target") ∧
    (t.noRead "out" = false ∧ t.noSeek "out" = false ∧ t.damage "out" = none) ∧
    CanStart t s "dict" "target" "target" ∧ s.input "target" ≠ [] ∧ t.passed 5 = 0 ∧ t.space "target" = none := by
  refine ⟨⟨⟨rfl, rfl, rfl⟩, fun k hk => ?_, Or.inr ⟨rfl, rfl, rfl⟩, Or.inr rfl⟩, ⟨rfl, rfl, Or.inr (by decide +kernel)⟩,
    ⟨by decide +kernel, by decide +kernel, by decide +kernel, by decide +kernel⟩, ⟨rfl, rfl, rfl⟩,
    ⟨⟨rfl, rfl, rfl⟩, fun k hk => ?_, Or.inr ⟨rfl, rfl, rfl⟩, Or.inr rfl⟩, by decide +kernel, rfl, rfl⟩
  · cases hk
  · cases hk

/-- The hypotheses of `decode_completes`, `interrupted_decode` and `decode_in_place_destroys`: the delta of the examples decodes to `a` in
whatever chunks it comes. -/
example : ∀ (dict : Bytes) (chunks : List Bytes), exampleFiles.files "dict" = some dict → chunks.flatten = exampleFiles.input "delta" →
    (configured (cliSettings {})).decode dict chunks = some [0x61] := by
  intro dict chunks hd hc
  obtain ⟨delta, h1, _, h2⟩ := library_round_trip (f := {}) (g := {}) (dict := (exampleFiles.files "dict").getD []) (chunks := [[0x61]]) rfl
    ⟨by decide +kernel, by decide +kernel, by decide +kernel, by decide +kernel⟩ (by simp)
  have h3 : (Vcd.encode ((exampleFiles.files "dict").getD []) 0 false [[0x61]]).toOption = some (some (exampleFiles.input "delta")) := by
    decide +kernel
  have h1' : Vcd.encode ((exampleFiles.files "dict").getD []) 0 false [[0x61]] = .ok (some delta) := h1
  rw [h1'] at h3
  simp only [Except.toOption, Option.some.injEq] at h3
  have := h2 chunks (by rw [hc, h3])
  rw [hd] at this
  exact this

/-- Runs of the examples, from start to end: `encode`, `decode`, `decode` killed after no turn at all, and `encode` from standard input to
standard output. -/
example :
    (main 35 {} { rest := ["encode"], dictionary := "dict", target := "target", delta := "out" } exampleFiles).toOption.map
        (fun r => (r.status, outputOf r.sys "out")) =
      some (some 0, [0xD6, 0xC3, 0xC4, 0, 0, 1, 80, 0, 8, 33, 0, 0, 2, 1, 115, 33, 0]) ∧
    (main 17 {} { rest := ["decode"], dictionary := "dict", target := "out", delta := "delta" } exampleFiles).toOption.map
        (fun r => (r.status, outputOf r.sys "out")) = some (some 0, [0x61]) ∧
    (main 0 {} { rest := ["patch"], dictionary := "dict", target := "target", delta := "delta" } exampleFiles).toOption.map
        (fun r => (r.status, outputOf r.sys "target")) = some (none, []) ∧
    (main 2 {} { rest := ["delta"], dictionary := "dict" } { exampleFiles with stdin := [0x61] }).toOption.map
        (fun r => (r.status, outputOf r.sys "")) = some (some 0, [0xD6, 0xC3, 0xC4, 0, 0, 1, 80, 0, 7, 1, 0, 1, 1, 0, 0x61, 2]) := by
  refine ⟨by decide +kernel, by decide +kernel, by decide +kernel, by decide +kernel⟩

end Props
end Vcd
