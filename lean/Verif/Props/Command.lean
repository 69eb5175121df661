import Verif.Proof.Command
import Verif.Props.Main
import Verif.Props.Json

/-!
# C69, C70: `vcdiff encode -json`, and that the command comes to an end
-/

namespace Vcd
open Spec Cli

theorem runEncode_status {n : Nat} {t : Trouble} {a : Args} {s : System} {r : Cli.Run} (h : runEncode n t a s = .ok r) :
    r.status = none ∨ r.status = some 0 ∨ r.status = some 1 := by
  unfold runEncode at h
  split at h
  · cases h; simp
  · split at h
    · cases h
    · cases h; simp
    · split at h
      · cases h
      · split at h
        · cases h; simp
        · split at h
          · cases h
          · rename_i turn _
            cases turn with
            | next st => cases h; simp
            | fail st => cases h; simp
            | last st =>
              simp only [endEncode] at h
              split at h
              · cases h
              · split at h <;> cases h <;> simp

theorem runDecode_status {n : Nat} {t : Trouble} {a : Args} {s : System} {r : Cli.Run} (h : runDecode n t a s = .ok r) :
    r.status = none ∨ r.status = some 0 ∨ r.status = some 1 := by
  unfold runDecode at h
  split at h
  · cases h; simp
  · split at h
    · cases h
    · rename_i turn _
      injection h with h
      rw [← h]
      cases turn with
      | next st => simp [endDecode]
      | fail st => simp [endDecode]
      | last st => simp only [endDecode]; split <;> simp

theorem runCompare_status {n : Nat} {t : Trouble} {a : Args} {s : System} {r : Cli.Run} (h : runCompare n t a s = .ok r) :
    r.status = none ∨ r.status = some 0 ∨ r.status = some 1 := by
  unfold runCompare at h
  split at h
  · cases h; simp
  · split at h
    · cases h; simp
    · split at h
      · cases h; simp
      · split at h
        · cases h
        · rename_i turn _
          injection h with h
          rw [← h]
          cases turn with
          | next st => simp [endCompare]
          | fail st => simp [endCompare]
          | last st =>
            simp only [endCompare]
            split
            · simp
            · split
              · simp
              · split <;> simp

theorem json_format {f : Flags} (h : f.json = true) : f.format &&& 4 ≠ 0 := by
  simp only [Cli.Flags.format, h]
  cases f.interleaved <;> cases f.checksum <;> decide

/-- The library does not fault on sizes within the format. -/
theorem library_no_fault {a : Args} {dict T : Bytes} (hfit : WithinFormat a.flags dict T) :
    ∃ engine rep coder, Engine.init dict = .ok (some engine) ∧
      (Encoder.new engine a.flags.format a.flags.targetMatches).call .start = .ok (rep, coder) ∧
      (rep.ret = true → ∀ cs : List Bytes, cs.flatten <+: T → (∀ x ∈ cs, x.length ≤ min a.flags.buffersize T.length) →
        ∃ rs e', coder.calls (cs.map .chunk) = .ok (rs, e')) := by
  cases hjson : a.flags.json with
  | false =>
    obtain ⟨engine, rep, coder, h1, h2, h3, h4⟩ := library_encodes (a := a) hjson hfit
    refine ⟨engine, rep, coder, h1, h2, fun _ cs k1 k2 => ?_⟩
    obtain ⟨rs, e', k3, _⟩ := h4 cs k1 k2
    exact ⟨rs, e', k3⟩
  | true =>
    have hb := json_format hjson
    have hdl : dict.length < 2 ^ 31 := by have := hfit.1; omega
    by_cases hascii : Ascii dict
    · obtain ⟨engine, items, h1, h2, _⟩ := Props.json_protocol dict hdl hascii a.flags.format hb a.flags.targetMatches
      obtain ⟨e0, k0⟩ := h2 [.start] (by intro data hm; simp at hm)
      simp only [Encoder.calls] at k0
      cases hs : (Encoder.new engine a.flags.format a.flags.targetMatches).call .start with
      | error x => rw [hs] at k0; simp at k0
      | ok p =>
        obtain ⟨rep, coder⟩ := p
        refine ⟨engine, rep, coder, h1, hs, fun _ cs _ hcs => ?_⟩
        obtain ⟨e', k⟩ := h2 ([.start] ++ cs.map .chunk) (by
          intro data hm
          simp at hm
          have := hcs data hm
          have := hfit.1
          omega)
        simp only [List.singleton_append, Encoder.calls, hs] at k
        cases hc : coder.calls (cs.map .chunk) with
        | error x => rw [hc] at k; simp at k
        | ok p => exact ⟨p.1, p.2, rfl⟩
    · obtain ⟨engine, e', h1, h2⟩ := Props.json_dictionary_refused dict hdl hascii a.flags.format hb a.flags.targetMatches [.start]
      simp only [Encoder.calls] at h2
      cases hs : (Encoder.new engine a.flags.format a.flags.targetMatches).call .start with
      | error x => rw [hs] at h2; simp at h2
      | ok p =>
        obtain ⟨rep, coder⟩ := p
        rw [hs] at h2
        simp only [Except.ok.injEq, Prod.mk.injEq, List.map_cons, List.map_nil, List.cons.injEq, and_true] at h2
        refine ⟨engine, rep, coder, h1, hs, fun h => ?_⟩
        rw [h2.1] at h
        cases h

/-- An accepted delta for a target that is not empty begins with the magic number. -/
theorem accepted_magic {s : Settings} {dict T : Bytes} {chunks : List Bytes} (hT : T ≠ [])
    (h : (configured s).decode dict chunks = some T) : chunks.flatten.head? = some 0xD6 := by
  have hf := Props.accepted_follows_grammar_partial s dict T chunks h
  generalize chunks.flatten = x at hf
  generalize hl : defaultTable = left at hf
  cases hf with
  | mk hh _ => cases hh <;> rfl
  | empty => exact absurd rfl hT

/-- The text of the JSON format begins with a bracket. -/
theorem json_bracket {dict : Bytes} {flags : Nat} {matching : Bool} {chunks : List Bytes} {text : Bytes} (hdl : dict.length < 2 ^ 31)
    (had : Ascii dict) (hb : flags &&& 4 ≠ 0) (hs : ∀ data ∈ chunks, dict.length + data.length < 2 ^ 31 ∧ Ascii data)
    (hne : chunks.flatten ≠ []) (h : Vcd.encode dict flags matching chunks = .ok (some text)) : text.head? = some 0x5B := by
  obtain ⟨engine, old, new, e', values, opss, d1, d2, d3, d4, d5, _⟩ :=
    Props.json_document dict hdl had flags hb matching [] (by intro data hm; cases hm) chunks hs hne
  have hold : old = [] := List.eq_nil_of_length_eq_zero d3
  subst hold
  simp only [List.nil_append] at d2
  simp only [Vcd.encode, d1, d2, Except.ok.injEq] at h
  split at h
  · injection h with h
    rw [h] at d5
    cases d5 <;> rfl
  · cases h

/-- A delta in a binary format is not empty. -/
theorem binary_nonempty {f : Flags} {dict : Bytes} {chunks : List Bytes} {delta : Bytes} (hjson : f.json = false)
    (hfit : WithinFormat f dict chunks.flatten) (hlen : ∀ c ∈ chunks, c.length ≤ f.buffersize)
    (h : Vcd.encode dict f.format f.targetMatches chunks = .ok (some delta)) : delta ≠ [] := by
  obtain ⟨f1, f2⟩ := hfit
  have hb : f.format &&& 4 = 0 := by
    simp only [Cli.Flags.format, hjson]
    cases f.interleaved <;> cases f.checksum <;> decide
  have hs : ∀ data ∈ chunks, dict.length + data.length < 2 ^ 31 ∧ data.length + 64 < 2 ^ 31 := by
    intro data hd
    have h1 := hlen data hd
    have h2 := mem_length_le hd
    exact ⟨by omega, by omega⟩
  obtain ⟨windows, w1, _⟩ := Props.encode_is_header_and_windows dict (by omega) f.format hb f.targetMatches chunks hs
  rw [h] at w1
  injection w1 with w1
  injection w1 with w1
  rw [w1]
  intro hc
  have hl := congrArg List.length hc
  have : 0 < (Writer.header f.format).length := by cases hfl : f.format <;> simp [Writer.header]
  simp only [List.length_append, List.length_nil] at hl
  omega

namespace Props

/-- C70: the exit status is 0 or 1 once the command has ended. -/
theorem exit_status (n : Nat) (t : Trouble) (a : Args) (s : System) (r : Cli.Run) (h : main n t a s = .ok r) :
    r.status = none ∨ r.status = some 0 ∨ r.status = some 1 := by
  rcases main_cases h with h | ⟨_, h⟩ | ⟨_, h⟩ | ⟨_, r1, h1, ⟨_, h⟩ | ⟨_, h⟩⟩
  · rw [h]; simp
  · exact runEncode_status h
  · exact runDecode_status h
  · rw [h]; exact runEncode_status h1
  · exact runCompare_status h

/-- C70: whatever goes wrong, `encode` and `decode` come to an end: after as many turns as the input has bytes, and one, they have an exit
status. The input must be another file than the output, and not an empty file. -/
theorem command_ends (n : Nat) (t : Trouble) (a : Args) (s : System) (r : Cli.Run) (htest : a.rest ≠ ["test"])
    (hin : ∀ i o, commandFiles a = some (i, o) → i = "" ∨ i ≠ o ∧ s.input i ≠ [])
    (h : main n t a s = .ok r) (hn : ∀ i o, commandFiles a = some (i, o) → (s.input i).length < n) :
    r.status = some 0 ∨ r.status = some 1 := by
  refine (exit_status n t a s r h).resolve_left ?_
  by_cases hbuf : a.flags.buffersize = 0
  · rw [nothing_touched_on_refusal n t a s (Or.inl (fun hp => hp.2.2.1 hbuf))] at h
    cases h
    simp
  rcases main_cases h with h | ⟨hc, h⟩ | ⟨hc, h⟩ | ⟨hc, _⟩
  · rw [h]; simp
  · have hf := commandFiles_encode (a := a) (by rcases hc with hc | hc <;> simp [hc])
    have k := hin _ _ hf
    exact runEncode_ends (s := { s with stdout := [] }) rfl hbuf (k.imp_right And.left) (k.imp_right And.right) h (hn _ _ hf)
  · have hf := commandFiles_decode hc
    have k := hin _ _ hf
    exact runDecode_ends (s := { s with stdout := [] }) rfl hbuf (k.imp_right And.left) (k.imp_right And.right) h (hn _ _ hf)
  · exact absurd hc htest

/-- C70: `encode` performs no undefined operation, whatever goes wrong and whatever the dictionary and the target are, as long as their sizes are within
the format. -/
theorem encode_no_fault (n : Nat) (t : Trouble) (a : Args) (s : System) (hcmd : a.rest = ["encode"] ∨ a.rest = ["delta"])
    (hin : a.target = "" ∨ a.target ≠ a.delta)
    (hfit : ∀ dict, s.files a.dictionary = some dict → WithinFormat a.flags dict (s.input a.target)) : ∃ r, main n t a s = .ok r := by
  by_cases hd : a.dictionary = ""
  · exact ⟨_, nothing_touched_on_refusal n t a s (Or.inl (fun hp => hp.2.1 hd))⟩
  by_cases hbuf : a.flags.buffersize = 0
  · exact ⟨_, nothing_touched_on_refusal n t a s (Or.inl (fun hp => hp.2.2.1 hbuf))⟩
  rw [main_encode hd hbuf hcmd]
  exact runEncode_no_fault rfl hin (fun dict hdict => library_no_fault (hfit dict hdict))

/-- C69: `encode` with `-json`, if dictionary and target are ASCII and nothing goes wrong: the exit status is 0, and the output is a JSON
array. It stands for instructions which rebuild, one after the other, the chunks into which the target is cut after every `buffersize` bytes,
each from the dictionary. If the target fits into the buffer or target matches are not asked for, they rebuild the target from the
dictionary. -/
theorem json_command (n : Nat) (t : Trouble) (a : Args) (s : System) (hcmd : a.rest = ["encode"] ∨ a.rest = ["delta"])
    (hd : a.dictionary ≠ "") (hbuf : a.flags.buffersize ≠ 0) (hin : a.target = "" ∨ a.target ≠ a.delta)
    (hjson : a.flags.json = true) (hc : CanStart t s a.dictionary a.target a.delta) (hr : RunsSmoothly t s a.target a.delta)
    (dict : Bytes) (hdict : s.files a.dictionary = some dict) (hfit : WithinFormat a.flags dict (s.input a.target))
    (had : Ascii dict) (hat : Ascii (s.input a.target)) (hne : s.input a.target ≠ []) (hn : (s.input a.target).length < n) :
    ∃ (text : Bytes) (chunks : List Bytes) (values : List JsonValue) (opss : List (List Op)),
      main n t a s = .ok ⟨some 0, ({ s with stdout := [] } : System).put a.delta text⟩ ∧
      chunks.flatten = s.input a.target ∧ CutEvery a.flags.buffersize chunks ∧
      JsonArray text values ∧ jsonOps values = some opss.flatten ∧ opss.length = chunks.length ∧
      (∀ (i : Nat) (data : Bytes), chunks[i]? = some data → ∃ ops, opss[i]? = some ops ∧ execOps dict ops = dict ++ data) ∧
      (a.flags.targetMatches = false ∨ (s.input a.target).length ≤ a.flags.buffersize →
        execOps dict opss.flatten = dict ++ s.input a.target) := by
  have hb := json_format hjson
  have hdl : dict.length < 2 ^ 31 := by have := hfit.1; omega
  have hdd : ∀ d, ({ s with stdout := [] } : System).files a.dictionary = some d → d = dict := by
    intro d h
    have : s.files a.dictionary = some d := h
    rw [hdict] at this
    injection this with this
    exact this.symm
  have hasc : ∀ cs : List Bytes, cs.flatten <+: s.input a.target → ∀ x ∈ cs, Ascii x := by
    intro cs hpre x hx c hcx
    exact hat c (hpre.subset (List.mem_flatten.2 ⟨x, hx, hcx⟩))
  obtain ⟨r, h1, h2⟩ := runEncode_ok (t := t) (n := n) (a := a) (s := { s with stdout := [] }) rfl hd hbuf hin hc hr
    (fun d h => by
      rw [hdd d h]
      obtain ⟨engine, items, h1, h2, _⟩ := json_protocol dict hdl had a.flags.format hb a.flags.targetMatches
      obtain ⟨e0, k0⟩ := h2 [.start] (by intro data hm; simp at hm)
      simp only [Encoder.calls] at k0
      cases hs : (Encoder.new engine a.flags.format a.flags.targetMatches).call .start with
      | error x => rw [hs] at k0; simp at k0
      | ok p =>
        obtain ⟨rep, coder⟩ := p
        rw [hs] at k0
        simp only [Except.ok.injEq, Prod.mk.injEq, jsonProtocol, List.cons.injEq, and_true] at k0
        refine ⟨engine, rep, coder, h1, hs, by rw [k0.1], fun cs hpre hcs => ?_⟩
        obtain ⟨e', k⟩ := h2 ([.start] ++ cs.map .chunk) (by
          intro data hm
          simp at hm
          have := hcs data hm
          have := hfit.1
          rw [input_stdout] at *
          omega)
        simp only [List.singleton_append, Encoder.calls, hs] at k
        cases hc : coder.calls (cs.map .chunk) with
        | error x => rw [hc] at k; simp at k
        | ok p =>
          obtain ⟨rs, e2⟩ := p
          rw [hc] at k
          simp only [Except.ok.injEq, Prod.mk.injEq, jsonProtocol, List.cons.injEq] at k
          refine ⟨rs, e2, rfl, ?_⟩
          rw [k.1.2]
          have : ∀ (l : List Bytes) (f u : Bool), (∀ x ∈ l, Ascii x) → ∀ r ∈ jsonProtocol items true f u (l.map .chunk), r.ret = true := by
            intro l
            induction l with
            | nil => intro f u _ r hr; cases hr
            | cons x l ih =>
              intro f u hl r hr
              have hx : (x.all fun x => decide (x < 128)) = true := (isAscii_iff x).2 (hl x (by simp))
              simp only [List.map_cons, jsonProtocol, hx, if_true] at hr
              split at hr
              · rcases List.mem_cons.1 hr with rfl | hr
                · rfl
                · exact ih _ _ (fun y hy => hl y (List.mem_cons_of_mem _ hy)) r hr
              · rcases List.mem_cons.1 hr with rfl | hr
                · rfl
                · exact ih _ _ (fun y hy => hl y (List.mem_cons_of_mem _ hy)) r hr
          exact this cs _ _ (hasc cs hpre)) hn
  rw [main_encode hd hbuf hcmd, h1]
  rcases runEncode_meaning rfl hin h1 with h | ⟨dict', out, cs, k1, k2, k3, _, k5, _, k7⟩
  · rw [h] at h2; cases h2
  · obtain ⟨j1, jc, j2, _, j3⟩ := k7 h2
    have hd' := hdd dict' k1
    subst hd'
    rw [input_stdout] at j1
    have hs : ∀ data ∈ cs, dict'.length + data.length < 2 ^ 31 ∧ Ascii data := by
      intro data hm
      have h1 := k5 data hm
      have h2 := mem_length_le hm
      rw [j1] at h2
      have := hfit.1
      exact ⟨by omega, hasc cs (by rw [j1]; exact List.prefix_refl _) data hm⟩
    have hne' : cs.flatten ≠ [] := by rw [j1]; exact hne
    have hfilter : cs.filter (· ≠ []) = cs := List.filter_eq_self.2 (fun x hx => by simpa using (jc.1 x hx).1)
    obtain ⟨engine, old, new, e', values, opss, d1, d2, d3, d4, d5, d6, d7, d8⟩ :=
      json_document dict' hdl had a.flags.format hb a.flags.targetMatches [] (by intro data hm; cases hm) cs hs hne'
    rw [hfilter] at d7 d8
    have hold : old = [] := List.eq_nil_of_length_eq_zero d3
    subst hold
    have henc : out.given = new.flatMap (·.out) := by
      simp only [Vcd.encode, d1] at j3
      simp only [List.nil_append] at d2
      rw [d2] at j3
      simp only [Except.ok.injEq] at j3
      rw [if_pos (by simpa using d4)] at j3
      injection j3 with j3
      exact j3.symm
    refine ⟨out.given, cs, values, opss, ?_, j1, jc, by rw [henc]; exact d5, d6, d7, ?_, ?_⟩
    · obtain ⟨st, sys⟩ := r
      simp only at h2 k3
      rw [h2, k3, disk_all k2 hr.2.1 rfl j2]
    · intro i data hi
      obtain ⟨ops, o1, o2, _⟩ := d8 i data hi
      exact ⟨ops, o1, o2⟩
    · intro hone
      obtain ⟨engine2, old2, new2, e2, values2, ops2, f1, f2, f3, f4, f5, f6, f7⟩ :=
        json_denotes_target dict' hdl had a.flags.format hb a.flags.targetMatches [] (by intro data hm; cases hm) cs hs hne' (by
          refine hone.imp_right (fun hl => ?_)
          rw [hfilter]
          have hdl := cut_one jc (by rw [j1]; exact hl)
          cases cs with
          | nil => exact absurd rfl hne'
          | cons x xs =>
            cases xs with
            | nil => rfl
            | cons y ys => simp at hdl)
      rw [d1] at f1
      cases f1
      have hold : old2 = [] := List.eq_nil_of_length_eq_zero f3
      subst hold
      rw [d2] at f2
      simp only [List.nil_append, Except.ok.injEq, Prod.mk.injEq] at f2
      rw [← f2.1] at f5
      have hv := json_unambiguous d5 f5
      rw [← hv, d6] at f6
      injection f6 with f6
      rw [f6, f7, j1]

/-- C69: if the dictionary or the target is not ASCII, then `encode` with `-json` never ends with exit status 0, whatever else happens. -/
theorem json_command_refused (n : Nat) (t : Trouble) (a : Args) (s : System) (r : Cli.Run)
    (hcmd : a.rest = ["encode"] ∨ a.rest = ["delta"]) (hin : a.target = "" ∨ a.target ≠ a.delta) (hjson : a.flags.json = true)
    (dict : Bytes) (hdict : s.files a.dictionary = some dict) (hfit : WithinFormat a.flags dict (s.input a.target))
    (hna : ¬ (Ascii dict ∧ Ascii (s.input a.target))) (h : main n t a s = .ok r) : r.status ≠ some 0 := by
  intro h0
  obtain ⟨dict', chunks, delta, k1, k2, k3, k4, _⟩ := encode_status_zero_partial n t a s r hcmd hin h h0
  rw [hdict] at k1
  cases k1
  rw [cliFormat_eq] at k4
  have hb := json_format hjson
  have hdl : dict.length < 2 ^ 31 := by have := hfit.1; omega
  by_cases had : Ascii dict
  · have hnat : ¬ Ascii (s.input a.target) := fun h => hna ⟨had, h⟩
    obtain ⟨engine, items, h1, h2, _⟩ := json_protocol dict hdl had a.flags.format hb a.flags.targetMatches
    obtain ⟨e', k⟩ := h2 ([.start] ++ chunks.map .chunk ++ [.finish]) (by
      intro data hm
      simp at hm
      have h1 := (k3.1 data hm).2
      have h2 := mem_length_le hm
      rw [k2] at h2
      have := hfit.1
      omega)
    simp only [Vcd.encode, h1, k, Except.ok.injEq] at k4
    split at k4
    · rename_i hall
      refine hnat ?_
      rw [← k2]
      have key : ∀ (l : List Bytes) (f u : Bool),
          (jsonProtocol items true f u (l.map .chunk ++ [.finish])).all (·.ret) = true → ∀ x ∈ l, Ascii x := by
        intro l
        induction l with
        | nil => intro f u _ x hx; cases hx
        | cons y l ih =>
          intro f u hl
          simp only [List.map_cons, List.cons_append, jsonProtocol] at hl
          by_cases hy : (y.all fun x => decide (x < 128)) = true
          · rw [if_pos hy] at hl
            have hya : Ascii y := (isAscii_iff y).1 hy
            split at hl
            · simp only [List.all_cons, Bool.true_and] at hl
              intro x hx
              rcases List.mem_cons.1 hx with rfl | hx
              · exact hya
              · exact ih _ _ hl x hx
            · simp only [List.all_cons, Bool.true_and] at hl
              intro x hx
              rcases List.mem_cons.1 hx with rfl | hx
              · exact hya
              · exact ih _ _ hl x hx
          · rw [if_neg hy] at hl
            simp at hl
      intro c hc
      obtain ⟨x, hx, hcx⟩ := List.mem_flatten.1 hc
      exact key chunks _ _ hall x hx c hcx
    · cases k4
  · obtain ⟨engine, e', h1, h2⟩ := json_dictionary_refused dict hdl had a.flags.format hb a.flags.targetMatches
      ([.start] ++ chunks.map .chunk ++ [.finish])
    simp only [Vcd.encode, h1, h2] at k4
    simp at k4

/-- C69: exit status 0 of `encode -json` means that dictionary and target are ASCII and that the output begins with a bracket. -/
theorem json_status_zero {n : Nat} {t : Trouble} {a : Args} {s : System} {r : Cli.Run}
    (hcmd : a.rest = ["encode"] ∨ a.rest = ["delta"]) (hin : a.target = "" ∨ a.target ≠ a.delta) (hjson : a.flags.json = true)
    (hfit : ∀ dict, s.files a.dictionary = some dict → WithinFormat a.flags dict (s.input a.target)) (hne : s.input a.target ≠ [])
    (h : main n t a s = .ok r) (h0 : r.status = some 0) :
    ∃ text, Written t r.sys a.delta text ∧ text.head? = some 0x5B := by
  obtain ⟨dict, chunks, delta, k1, k2, k3, k4, k5⟩ := encode_status_zero_partial n t a s r hcmd hin h h0
  rw [cliFormat_eq] at k4
  have hf := hfit dict k1
  have hdl : dict.length < 2 ^ 31 := by have := hf.1; omega
  have hasc : Ascii dict ∧ Ascii (s.input a.target) := Classical.byContradiction fun hna =>
    json_command_refused n t a s r hcmd hin hjson dict k1 hf hna h h0
  refine ⟨delta, k5, json_bracket hdl hasc.1 (json_format hjson) ?_ (by rw [k2]; exact hne) k4⟩
  intro data hm
  have h1 := (k3.1 data hm).2
  have h2 := mem_length_le hm
  rw [k2] at h2
  have := hf.1
  refine ⟨by omega, fun c hc => hasc.2 c ?_⟩
  rw [← k2]
  exact List.mem_flatten.2 ⟨data, hm, hc⟩

/-- C69: `test` with `-json` never ends with exit status 0: the decoder does not read JSON. -/
theorem json_test_fails (n : Nat) (t : Trouble) (a : Args) (s : System) (r : Cli.Run) (hcmd : a.rest = ["test"])
    (hin : a.target ≠ a.delta) (hjson : a.flags.json = true)
    (hfit : ∀ dict, s.files a.dictionary = some dict → WithinFormat a.flags dict (s.input a.target)) (hne : s.input a.target ≠ [])
    (h : main n t a s = .ok r) : r.status ≠ some 0 := by
  intro h0
  have hnames : a.target ≠ "" ∧ a.delta ≠ "" := by
    refine Classical.byContradiction fun hn => ?_
    rw [nothing_touched_on_refusal n t a s (Or.inl (fun hp => hn (hp.2.2.2 hcmd)))] at h
    cases h; cases h0
  obtain ⟨dict, chunks, _, k2, k3⟩ := test_status_zero n t a s r hcmd h h0
  have henc := test_runs_encode n t a s r hcmd h h0
  obtain ⟨text, w1, w2⟩ := json_status_zero (a := { a with rest := ["encode"] }) (Or.inl rfl) (Or.inr hin) hjson hfit hne henc h0
  have htarget : r.sys.input a.target = s.input a.target := by
    simp only [System.input, if_neg hnames.1]
    rw [(only_output_touched n t a s r h).1 a.target (Or.inl (by
      rw [commandFiles_encode (Or.inr (Or.inr hcmd))]
      simpa using fun e => hin e.symm))]
  have hm := accepted_magic (by rw [htarget]; exact hne) k3
  have hout : outputOf r.sys a.delta = chunks.flatten := by
    rw [k2]
    simp only [outputOf, System.input, if_neg hnames.2]
  rw [← hout] at hm
  rcases w1 with w1 | ⟨k, _, _, _, w1⟩
  · simp only at w1
    rw [w1, w2] at hm
    exact absurd hm (by decide)
  · simp only at w1
    rw [w1] at hm
    cases text with
    | nil => cases w2
    | cons x xs =>
      cases k with
      | zero => cases hm
      | succ k =>
        simp only [List.take_succ_cons, List.head?_cons] at hm w2
        rw [w2] at hm
        exact absurd hm (by decide)

/-- C70: `test` comes to an end, too, if there is space for the delta. -/
theorem test_command_ends (t : Trouble) (a : Args) (s : System) (hcmd : a.rest = ["test"]) (hin : a.target ≠ a.delta)
    (hfit : ∀ dict, s.files a.dictionary = some dict → WithinFormat a.flags dict (s.input a.target)) (hne : s.input a.target ≠ [])
    (hspace : t.space a.delta = none) :
    ∃ N, ∀ n r, N ≤ n → main n t a s = .ok r → r.status = some 0 ∨ r.status = some 1 := by
  by_cases hp : ProperUsage a
  · obtain ⟨_, hd, hbuf, hnames⟩ := hp
    obtain ⟨n1, n2⟩ := hnames hcmd
    let b : Args := { a with rest := ["encode"] }
    have henc : ∀ n, main n t b s = runEncode n t a { s with stdout := [] } := by
      intro n
      rw [main_encode (a := b) hd hbuf (Or.inl rfl)]
      rfl
    obtain ⟨r1, h1⟩ := encode_no_fault ((s.input a.target).length + 1) t b s (Or.inl rfl) (Or.inr hin) hfit
    have hend := command_ends _ t b s r1 (by simp [b]) (by
      intro i o hf
      rw [commandFiles_encode (a := b) (Or.inl rfl)] at hf
      cases hf
      exact Or.inr ⟨hin, hne⟩) h1 (by
      intro i o hf
      rw [commandFiles_encode (a := b) (Or.inl rfl)] at hf
      cases hf
      exact Nat.lt_succ_self _)
    have hmain1 := h1
    rw [henc] at h1
    refine ⟨(s.input a.target).length + 1 + (r1.sys.input a.delta).length, fun n r hn h => ?_⟩
    refine (exit_status n t a s r h).resolve_left ?_
    have h1' := runEncode_mono (m := n) (by omega) h1 (by rcases hend with e | e <;> rw [e] <;> simp)
    rw [main_test hd hbuf hcmd, if_neg (by simp [n1, n2]), h1'] at h
    simp only at h
    by_cases h0 : r1.status = some 0
    · rw [if_pos h0] at h
      have hdelta : r1.sys.input a.delta ≠ [] := by
        have hw : ∃ delta, Written t r1.sys a.delta delta ∧ delta ≠ [] := by
          cases hjson : a.flags.json with
          | true =>
            obtain ⟨text, w1, w2⟩ := json_status_zero (a := b) (Or.inl rfl) (Or.inr hin) hjson hfit hne hmain1 h0
            exact ⟨text, w1, by intro e; rw [e] at w2; cases w2⟩
          | false =>
            obtain ⟨dict, chunks, delta, k1, k2, k3, k4, k5⟩ := encode_status_zero_partial _ t b s r1 (Or.inl rfl) (Or.inr hin) hmain1 h0
            rw [cliFormat_eq] at k4
            exact ⟨delta, k5, binary_nonempty (f := a.flags) hjson (by rw [k2]; exact hfit dict k1) (fun c hc => (k3.1 c hc).2) k4⟩
        obtain ⟨delta, w1, w2⟩ := hw
        rcases w1 with w1 | ⟨k, w1, _⟩
        · simp only [outputOf, if_neg n2] at w1
          simp only [System.input, if_neg n2]
          rw [w1]
          exact w2
        · rw [hspace] at w1; cases w1
      exact runCompare_ends hbuf n2 hdelta h (by omega)
    · rw [if_neg h0] at h
      cases h
      rcases hend with e | e <;> rw [e] <;> simp
  · refine ⟨0, fun n r _ h => ?_⟩
    rw [nothing_touched_on_refusal n t a s (Or.inl hp)] at h
    cases h
    simp

/-- If `encode` leaves an empty delta file and exit status 0, `test` goes on for ever. -/
theorem test_hangs {m n : Nat} {t : Trouble} {a : Args} {s : System} {r : Cli.Run} {dict : Bytes} {target : InFile × Nat}
    (hcmd : a.rest = ["test"]) (hd : a.dictionary ≠ "") (hbuf : a.flags.buffersize ≠ 0) (hnames : a.target ≠ "" ∧ a.delta ≠ "")
    (hdict : openDictionary t s a.dictionary = some dict) (htarget : openForReading t s a.flags.buffersize a.target = some target)
    (hdiff : a.dictionary ≠ a.delta ∧ a.target ≠ a.delta)
    (hok : t.noRead a.delta = false ∧ t.noSeek a.delta = false ∧ t.damage a.delta = none)
    (h : runEncode m t a { s with stdout := [] } = .ok r) (h0 : r.status = some 0) (hempty : r.sys.files a.delta = some []) (hn : m ≤ n) :
    main n t a s = .ok ⟨none, r.sys⟩ := by
  have hfiles : ∀ name, name ≠ a.delta → r.sys.files name = s.files name := by
    intro name hname
    rcases runEncode_files rfl h with e | ⟨x, e⟩
    · rw [e]
    · rw [e]; exact System.put_files_ne hname
  rw [main_test hd hbuf hcmd, if_neg (by simp [hnames]), runEncode_mono hn h (by rw [h0]; simp)]
  simp only [h0, if_true]
  refine runCompare_empty (dict := dict) (target' := target) ?_ hnames.2 hempty ?_ hok
  · simp only [openDictionary, hfiles _ hdiff.1] at hdict ⊢
    exact hdict
  · simp only [openForReading, hfiles _ hdiff.2] at htarget ⊢
    exact htarget

/-- Against C70 without the space: if the disk is full and the C library holds the delta back until `fclose`, `test` does not notice, and
reads the empty delta file for ever. -/
theorem test_full_disk_never_ends : ∃ t : Trouble, ∀ n, 2 ≤ n → ∃ r,
    main n t { rest := ["test"], dictionary := "dict", target := "target", delta := "out" } exampleFiles = .ok r ∧ r.status = none := by
  refine ⟨{ space := fun _ => some 0 }, ?_⟩
  intro n hn
  have h2 : (runEncode 2 { space := fun _ => some 0 } { rest := ["test"], dictionary := "dict", target := "target", delta := "out" }
      { exampleFiles with stdout := [] }).toOption.map (fun r => (r.status, r.sys.files "out")) = some (some 0, some []) := by decide +kernel
  cases hr : runEncode 2 { space := fun _ => some 0 } { rest := ["test"], dictionary := "dict", target := "target", delta := "out" }
      { exampleFiles with stdout := [] } with
  | error f => rw [hr] at h2; cases h2
  | ok r1 =>
    rw [hr] at h2
    simp only [Except.toOption, Option.map_some, Option.some.injEq, Prod.mk.injEq] at h2
    have hdict : openDictionary { space := fun _ => some 0 } exampleFiles "dict" =
        some (List.replicate 40 0x61 ++ List.replicate 40 0x62) := by decide +kernel
    have htarget : openForReading { space := fun _ => some 0 } exampleFiles ({} : Flags).buffersize "target" =
        some ({ name := "target" }, 33) := by rfl
    exact ⟨_, test_hangs (t := { space := fun _ => some 0 }) rfl (by decide) (by decide) (by decide) hdict htarget (by decide) ⟨rfl, rfl, rfl⟩
      hr h2.1 h2.2 hn, rfl⟩

/-- Instances: a JSON document from the command, with a target in two chunks; refusals; `test`. -/
example :
    (main 40 {} { rest := ["encode"], dictionary := "dict", target := "target", delta := "out", flags := { json := true, buffersize := 32 } }
        exampleFiles).toOption.map (fun r => (r.status, outputOf r.sys "out")) =
      some (some 0, [0x5B, 0x30, 0x2C, 0x33, 0x32, 0x2C, 0x22, 0x61, 0x22, 0x5D]) ∧
    (main 40 {} { rest := ["encode"], dictionary := "dict", target := "delta", delta := "out", flags := { json := true } }
        exampleFiles).toOption.map (fun r => (r.status, outputOf r.sys "out")) = some (some 1, []) ∧
    (main 40 {} { rest := ["test"], dictionary := "dict", target := "target", delta := "out", flags := { json := true } }
        exampleFiles).toOption.map (fun r => r.status) = some (some 1) ∧
    (main 40 {} { rest := ["test"], dictionary := "dict", target := "target", delta := "out" } exampleFiles).toOption.map
        (fun r => r.status) = some (some 0) := by
  refine ⟨by decide +kernel, by decide +kernel, by decide +kernel, by decide +kernel⟩

/-- The other hypotheses of `json_command`, `command_ends` and `test_command_ends` are met by the example files (see also the example
after `encode_in_place_destroys`). -/
example : let s := exampleFiles
    WithinFormat { json := true, buffersize := 32 } ((s.files "dict").getD []) (s.input "target") ∧ Ascii ((s.files "dict").getD []) ∧
    Ascii (s.input "target") ∧ s.input "target" ≠ [] ∧ ¬ Ascii (s.input "delta") ∧ s.input "delta" ≠ [] := by
  refine ⟨⟨by decide +kernel, by decide +kernel⟩, ?_, ?_, by decide +kernel, ?_, by decide +kernel⟩
  · exact (isAscii_iff _).1 (by decide +kernel)
  · exact (isAscii_iff _).1 (by decide +kernel)
  · intro h
    exact absurd ((isAscii_iff _).2 h) (by decide +kernel)

end Props
end Vcd
