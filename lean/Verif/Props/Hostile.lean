import Verif.Props.Command

/-!
# C72: `vcdiff decode` and deltas nobody has to trust
-/

namespace Vcd.Cli
open Spec

/-- If a loop faults, a turn of it does. -/
theorem turns_fault {σ : Type} {turn : Stage σ → Except Fault (Turn σ)} {P : Stage σ → Prop}
    (h : ∀ st st', P st → turn st = .ok (.next st') → P st') {n : Nat} {st : Stage σ} {f : Fault} (hp : P st)
    (hf : turns turn n st = .error f) : ∃ st', P st' ∧ turn st' = .error f := by
  induction n generalizing st with
  | zero => simp [turns] at hf
  | succ n ih =>
    simp only [turns] at hf
    cases ht : turn st with
    | error f' =>
      rw [ht] at hf
      cases hf
      exact ⟨st, hp, ht⟩
    | ok r =>
      rw [ht] at hf
      cases r with
      | next st' => exact ih (h st st' hp ht) hf
      | last st' => cases hf
      | fail st' => cases hf

section
variable {t : Trouble} {base : System} {inName outName : String} {c : Bytes}

/-- If a turn of `Decode` faults, the library does, on the first bytes of the delta. -/
theorem DecAt.fault {d0 : Decoder} (hin : ∀ x, (base.put outName x).input inName = c) {size : Nat} {st : Stage Decoder}
    {cs : List Bytes} (h : DecAt t base inName outName c d0 st cs) {f : Fault} (hr : decodeTurn t size st = .error f) :
    ∃ data, (cs ++ [data]).flatten <+: c ∧ st.coder.call (.chunk data) = .error f := by
  have hc : st.sys.input st.input.name = c := by rw [h.sys, h.oname, h.iname, hin]
  unfold decodeTurn at hr
  cases hf : st.input.fread t st.sys size with
  | none => rw [hf] at hr; cases hr
  | some p =>
    obtain ⟨data, input⟩ := p
    rw [hf] at hr
    simp only at hr
    obtain ⟨f1, f2, f3, f4, f5, f6⟩ := fread_spec hf (by rw [hc]; exact h.off)
    rw [hc] at f1
    by_cases h0 : data = []
    · rw [if_pos h0] at hr; cases hr
    · rw [if_neg h0] at hr
      cases hcall : st.coder.call (.chunk data) with
      | error f' =>
        rw [hcall] at hr
        cases hr
        refine ⟨data, ?_, hcall⟩
        simp only [List.flatten_append, List.flatten_cons, List.flatten_nil, List.append_nil]
        rw [h.read, f1, take_add]
        exact List.take_prefix _ _
      | ok p =>
        rw [hcall] at hr
        simp only at hr
        split at hr
        · cases hr
        · split at hr <;> cases hr

end

/-- The calls that `Decode` makes before its loop. -/
def preparation (f : Flags) (dict : Bytes) : List DecoderCall :=
  [.setMaxFile f.maxTargetFileSize, .setMaxWin f.maxTargetWindowSize, .setAllowTarget f.allowVcdTarget, .start dict]

theorem decoder_inv (f : Flags) (dict : Bytes) : DecInv (decoder f dict) := by
  have h : ∃ rs, ({} : Decoder).calls (preparation f dict) = .ok (rs, decoder f dict) := ⟨_, rfl⟩
  obtain ⟨rs, h⟩ := h
  exact DecInv.new.calls h

theorem decoder_fault {f : Flags} {dict : Bytes} {cs : List DecoderCall} {x : Fault} (h : (decoder f dict).calls cs = .error x) :
    ({} : Decoder).calls (preparation f dict ++ cs) = .error x := by
  have e : ∀ (d : Decoder) (c : DecoderCall) (r : DecoderReply) (d' : Decoder) (cs : List DecoderCall), d.call c = .ok (r, d') →
      d'.calls cs = .error x → d.calls (c :: cs) = .error x := by
    intro d c r d' cs h1 h2
    simp only [Decoder.calls, h1, h2]
  exact e _ _ _ _ _ rfl (e _ _ _ _ _ rfl (e _ _ _ _ _ rfl (e _ _ _ _ _ rfl h)))

/-- A fault in the last call is a fault of all of them. -/
theorem decoder_snoc_fault {e e1 : Decoder} {cs : List DecoderCall} {x : DecoderCall} {rs : List DecoderReply} {f : Fault}
    (h1 : e.calls cs = .ok (rs, e1)) (h2 : e1.call x = .error f) : e.calls (cs ++ [x]) = .error f := by
  induction cs generalizing e rs with
  | nil =>
    simp only [Decoder.calls, Except.ok.injEq, Prod.mk.injEq] at h1
    rw [h1.2]
    simp only [List.nil_append, Decoder.calls, h2]
  | cons a as ih =>
    obtain ⟨r1, d1, rs1, k1, k2, _⟩ := calls_cons_ok h1
    rw [List.cons_append, Decoder.calls, k1]
    simp only
    rw [ih k2]

/-- If `Decode` faults, the library does. -/
theorem runDecode_fault {n : Nat} {t : Trouble} {a : Args} {s : System} {f : Fault} (hs : s.stdout = [])
    (hin : a.delta = "" ∨ a.delta ≠ a.target) (h : runDecode n t a s = .error f) :
    ∃ (dict : Bytes) (cs : List Bytes), s.files a.dictionary = some dict ∧ cs.flatten <+: s.input a.delta ∧
      (decoder a.flags dict).calls (cs.map .chunk) = .error f := by
  unfold runDecode at h
  cases ho : openFiles t s a.flags.buffersize a.dictionary a.delta a.target with
  | none => rw [ho] at h; cases h
  | some q =>
    obtain ⟨dict, input, size, sys, out⟩ := q
    obtain ⟨h1, h2, h3, h4, h5⟩ := openFiles_some hs ho
    rw [ho] at h
    simp only at h
    subst h2; subst h4; subst h5
    have hput : ∀ x, (s.put a.target x).input a.delta = s.input a.delta := fun x => System.put_input hin x
    have h0 : DecAt t s a.delta a.target (s.input a.delta) (decoder a.flags dict)
        (Stage.mk (s.put a.target []) { name := a.delta } (decoder a.flags dict) [] { name := a.target }) [] :=
      ⟨congrArg (s.put a.target) disk_nil.symm, rfl, rfl, rfl, Nat.zero_le _, rfl, by simp⟩
    cases ht : turns (decodeTurn t size) n
        (Stage.mk (s.put a.target []) { name := a.delta } (decoder a.flags dict) [] { name := a.target }) with
    | ok r => rw [ht] at h; cases h
    | error f' =>
      rw [ht] at h
      cases h
      obtain ⟨st, ⟨cs, hp⟩, hst⟩ := turns_fault
        (P := fun st => ∃ cs, DecAt t s a.delta a.target (s.input a.delta) (decoder a.flags dict) st cs)
        (fun st st' hp hr => by
          obtain ⟨cs, hp⟩ := hp
          exact (hp.turn hput hr).1) ⟨[], h0⟩ ht
      obtain ⟨data, k1, k2⟩ := hp.fault hput hst
      obtain ⟨rs, j1, _⟩ := feed_calls hp.fed
      refine ⟨dict, cs ++ [data], h1, k1, ?_⟩
      rw [List.map_append, List.map_cons, List.map_nil]
      exact decoder_snoc_fault j1 k2

theorem streamOf_chunks (cs : List Bytes) : streamOf (cs.map .chunk) = cs.flatten := by
  induction cs with
  | nil => rfl
  | cons c cs ih => simp [streamOf, ih]

end Vcd.Cli

namespace Vcd.Props
open Vcd Vcd.Spec Cli

/-- C72: `vcdiff decode` writes at most `-max_target_file_size` bytes, whatever the delta is, whatever goes wrong, and at whatever time it
is looked at. -/
theorem decode_output_limited (n : Nat) (t : Trouble) (a : Args) (s : System) (r : Cli.Run)
    (hcmd : a.rest = ["decode"] ∨ a.rest = ["patch"]) (hin : a.delta = "" ∨ a.delta ≠ a.target) (h : main n t a s = .ok r) :
    r = ⟨some 1, { s with stdout := [] }⟩ ∨ (outputOf r.sys a.target).length ≤ a.flags.maxTargetFileSize := by
  rcases main_cases h with h | ⟨hc, h⟩ | ⟨hc, h⟩ | ⟨hc, r1, h1, h⟩
  · exact Or.inl h
  · rcases hc with hc | hc <;> rcases hcmd with h2 | h2 <;> rw [hc] at h2 <;> simp at h2
  · rcases runDecode_meaning rfl hin h with h | ⟨dict, out, cs, d, k1, k2, k3, ⟨rest, k4⟩, k5, _⟩
    · exact Or.inl h
    · right
      rw [← decoder_eq] at k5
      obtain ⟨rs, j1, j2, _⟩ := feed_calls k5
      have hm : (decoder a.flags dict).top.maxFile = a.flags.maxTargetFileSize ∧ (decoder a.flags dict).top.total = 0 ∧
          (decoder a.flags dict).top.owed = 0 := by
        have e : (cliSettings a.flags).maxFile = a.flags.maxTargetFileSize := by
          simp only [cliSettings, Settings.after, List.foldl_cons, List.foldl_nil, Settings.step]
          split <;> rfl
        rw [decoder_eq, ← e]
        exact ⟨rfl, rfl, rfl⟩
      have hl := file_limit (decoder_inv a.flags dict) (n := 0) (fun _ => ⟨by omega, by omega⟩) (Nat.zero_le _) j1
      rw [k3, outputOf_put]
      have := (OutFile.disk_prefix t out).length_le
      rw [j2] at hl
      omega
  · rcases hcmd with h2 | h2 <;> rw [hc] at h2 <;> simp at h2

/-- C72: whatever the delta is and whatever goes wrong, `vcdiff decode` performs no undefined operation but the two that C04 and C05 name: the
signed addition of C05, and leaving the address cache, for which the delta must contain a header that announces 254 NEAR slots. -/
theorem decode_command_faults (n : Nat) (t : Trouble) (a : Args) (s : System) (hcmd : a.rest = ["decode"] ∨ a.rest = ["patch"])
    (hin : a.delta = "" ∨ a.delta ≠ a.target) (f : Fault) (h : main n t a s = .error f) :
    f = .nearOverflow ∨ (f = .cacheOob ∧ AnnouncesNear254 (s.input a.delta)) := by
  by_cases hd : a.dictionary = ""
  · rw [nothing_touched_on_refusal n t a s (Or.inl (fun hp => hp.2.1 hd))] at h; cases h
  by_cases hbuf : a.flags.buffersize = 0
  · rw [nothing_touched_on_refusal n t a s (Or.inl (fun hp => hp.2.2.1 hbuf))] at h; cases h
  rw [main_decode hd hbuf hcmd] at h
  obtain ⟨dict, cs, _, k1, k2⟩ := runDecode_fault (s := { s with stdout := [] }) rfl hin h
  rw [input_stdout] at k1
  by_cases hf : f = .nearOverflow
  · exact Or.inl hf
  · right
    refine ⟨?_, ?_⟩
    · rcases decoder_faults_partial _ f (decoder_fault k2) with k | k
      · exact absurd k hf
      · exact k.1
    · apply Classical.byContradiction
      intro hn
      refine hf (no_near_254_no_cache_fault _ f (decoder_fault k2) fun hx => hn ?_)
      have e : streamOf (preparation a.flags dict ++ cs.map .chunk) = cs.flatten := streamOf_chunks cs
      rw [e] at hx
      exact hx.of_prefix k1

/-- Files with hostile deltas: one that goes on after three bytes, and one that overflows. -/
def hostileFiles : System :=
  { files := fun x =>
      if x = "dict" then some [1, 2, 3, 4, 5, 6, 7, 8]
      else if x = "long" then some (stdDelta ++ (List.replicate 50 (stdDelta.drop 5)).flatten)
      else if x = "wild" then
        some [0xD6, 0xC3, 0xC4, 0, 0, 1, 8, 0, 0x0D, 8, 0, 0, 2, 6, 0x14, 0x34, 1, 0x87, 0xFF, 0xFF, 0xFF, 0x7F]
      else none }

/-- The hypotheses are met: with a limit of 5 bytes, the first three are written and the exit status is 1; and there is a delta on which the
command overflows. -/
example :
    (main 9 {} { rest := ["decode"], dictionary := "dict", target := "out", delta := "long",
                 flags := { buffersize := 16, maxTargetFileSize := 5, allowVcdTarget := false } } hostileFiles).toOption.map
      (fun r => (r.status, outputOf r.sys "out")) = some (some 1, [0x61, 0x62, 0x63]) ∧
    faultOf (main 2 {} { rest := ["decode"], dictionary := "dict", target := "out", delta := "wild" } hostileFiles) =
      some .nearOverflow := by decide +kernel

end Vcd.Props
