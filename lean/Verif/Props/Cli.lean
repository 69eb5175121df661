import Verif.Proof.Cli
import Verif.Props.Encoder

/-!
# C35: the `vcdiff` command

`fuel` is the number of turns that the loops are allowed; one more than the length of the input is always
enough, except for an empty regular file (`cli_empty_file_never_ends`).
-/

namespace Vcd
open Spec

theorem Encoder.calls_append {e e2 : Encoder} {a b : List EncoderCall} {rs : List EncoderReply}
    (h : e.calls (a ++ b) = .ok (rs, e2)) :
    ∃ rs1 e1 rs2, e.calls a = .ok (rs1, e1) ∧ e1.calls b = .ok (rs2, e2) ∧ rs = rs1 ++ rs2 := by
  induction a generalizing e rs with
  | nil => exact ⟨[], e, rs, rfl, h, rfl⟩
  | cons c a ih =>
    simp only [List.cons_append, Encoder.calls] at h ⊢
    cases hc : e.call c with
    | error f => rw [hc] at h; simp at h
    | ok p =>
      obtain ⟨r, e'⟩ := p
      rw [hc] at h
      simp only at h ⊢
      cases hcs : e'.calls (a ++ b) with
      | error f => rw [hcs] at h; simp at h
      | ok q =>
        obtain ⟨rs', e''⟩ := q
        rw [hcs] at h
        simp only [Except.ok.injEq, Prod.mk.injEq] at h
        obtain ⟨h1, h2⟩ := h
        subst h1; subst h2
        obtain ⟨rs1, e1, rs2, k1, k2, k3⟩ := ih hcs
        exact ⟨r :: rs1, e1, rs2, by rw [k1], k2, by rw [k3]; rfl⟩

theorem Cli.cliFormat_eq (f : Cli.Flags) : cliFormat f = f.format := by
  unfold cliFormat Cli.Flags.format
  cases f.interleaved <;> cases f.checksum <;> cases f.json <;> rfl

namespace Props

/-- C35: `vcdiff encode` writes what the library outputs for the target, cut into chunks of at most the
buffer size. -/
theorem cli_encode_is_library (f : Cli.Flags) (hbuf : 0 < f.buffersize) (dict : Bytes) (target : Cli.Input)
    (hr : Readable target) :
    ∃ chunks : List Bytes, chunks.flatten = target.content ∧
      (∀ c ∈ chunks, c.length ≤ min f.buffersize target.content.length) ∧
      ∀ delta, encode dict (cliFormat f) f.targetMatches chunks = .ok (some delta) →
        ∀ fuel, target.content.length < fuel → Cli.encode fuel f dict target = .ok ⟨true, delta⟩ := by
  rw [Cli.cliFormat_eq]
  have hn := Cli.bufferSize_pos hbuf hr
  refine ⟨Cli.pieces (Cli.bufferSize f.buffersize target) target.content.length target.content,
    Cli.pieces_flatten hn (Nat.le_refl _),
    fun c hc => Nat.le_trans (Cli.pieces_length hc) (Cli.bufferSize_le ..), ?_⟩
  intro delta h fuel hf
  rw [← Cli.pieces_fuel hn (Nat.le_of_lt hf)] at h
  simp only [encode] at h
  simp only [Cli.encode]
  cases hi : Engine.init dict with
  | error x => rw [hi] at h; simp at h
  | ok o =>
    rw [hi] at h
    cases o with
    | none => simp at h
    | some engine =>
      simp only at h ⊢
      cases hc : (Encoder.new engine f.format f.targetMatches).calls
          ([.start] ++ (Cli.pieces (Cli.bufferSize f.buffersize target) fuel target.content).map .chunk ++ [.finish]) with
      | error x => rw [hc] at h; simp at h
      | ok p =>
        obtain ⟨rs, e3⟩ := p
        rw [hc] at h
        simp only [Except.ok.injEq] at h
        split at h
        · rename_i hall
          simp only [Option.some.injEq] at h
          obtain ⟨rs12, e2, rs3, k12, k3, h12⟩ := Encoder.calls_append hc
          obtain ⟨rs1, e1, rs2, k1, k2, h1⟩ := Encoder.calls_append k12
          subst h12; subst h1
          simp only [List.all_append, Bool.and_eq_true] at hall
          simp only [Encoder.calls] at k1
          cases hs : (Encoder.new engine f.format f.targetMatches).call .start with
          | error x => rw [hs] at k1; simp at k1
          | ok p =>
            obtain ⟨r1, e1'⟩ := p
            rw [hs] at k1
            simp only [Except.ok.injEq, Prod.mk.injEq] at k1
            obtain ⟨j1, j2⟩ := k1
            subst j1; subst j2
            have hr1 : r1.ret = true := by simpa using hall.1.1
            simp only [hr1, Bool.true_eq_false, if_false]
            obtain ⟨q, w, l1, l2⟩ := Cli.encodeLoop_ok hn hf (pending := r1.out) (written := []) k2
              (fun r hr => by simpa using List.all_eq_true.1 hall.1.2 r hr)
            rw [l1]
            simp only [Encoder.calls] at k3
            cases hfi : e2.call .finish with
            | error x => rw [hfi] at k3; simp at k3
            | ok p =>
              obtain ⟨r3, e3'⟩ := p
              rw [hfi] at k3
              simp only [Except.ok.injEq, Prod.mk.injEq] at k3
              obtain ⟨j3, j4⟩ := k3
              subst j3
              simp only [hfi]
              rw [← h, ← List.append_assoc, l2]
              simp
        · simp at h

/-- C35: `vcdiff decode` succeeds with `out` in the output file exactly if the library decodes the delta, cut
into chunks of at most the buffer size, to `out`. -/
theorem cli_decode_is_library (f : Cli.Flags) (hbuf : 0 < f.buffersize) (dict : Bytes) (delta : Cli.Input)
    (hr : Readable delta) :
    ∃ chunks : List Bytes, chunks.flatten = delta.content ∧
      (∀ c ∈ chunks, c.length ≤ min f.buffersize delta.content.length) ∧
      ∀ out fuel, delta.content.length < fuel → (Cli.decode fuel f dict delta = .ok ⟨true, out⟩ ↔
        (configured (cliSettings f)).decode dict chunks = some out) := by
  have hn := Cli.bufferSize_pos hbuf hr
  refine ⟨Cli.pieces (Cli.bufferSize f.buffersize delta) delta.content.length delta.content,
    Cli.pieces_flatten hn (Nat.le_refl _),
    fun c hc => Nat.le_trans (Cli.pieces_length hc) (Cli.bufferSize_le ..), ?_⟩
  intro out fuel hf
  rw [← Cli.pieces_fuel hn (Nat.le_of_lt hf)]
  simp only [Cli.decode, Decoder.decode, Cli.decoder_eq]
  have key := fun d' w => Cli.decodeLoop_iff hn hf (d := (configured (cliSettings f)).start dict) (d' := d')
    (written := []) (w := w)
  constructor
  · intro h
    cases hl : Cli.decodeLoop fuel (Cli.bufferSize f.buffersize delta) ⟨delta.content, false⟩
        ((configured (cliSettings f)).start dict) [] with
    | error x => rw [hl] at h; simp at h
    | ok p =>
      obtain ⟨o, w⟩ := p
      rw [hl] at h
      cases o with
      | none => simp at h
      | some d' =>
        simp only [Except.ok.injEq, Cli.Result.mk.injEq] at h
        obtain ⟨out', k1, k2⟩ := (key d' w).1 hl
        rw [k1]
        simp only [h.1, if_true, Option.some.injEq]
        rw [← h.2, k2]
        rfl
  · intro h
    cases hfe : ((configured (cliSettings f)).start dict).feed
        (Cli.pieces (Cli.bufferSize f.buffersize delta) fuel delta.content) with
    | none => rw [hfe] at h; simp at h
    | some p =>
      obtain ⟨o, d'⟩ := p
      rw [hfe] at h
      simp only at h
      split at h
      · rename_i hfin
        simp only [Option.some.injEq] at h
        subst h
        rw [(key d' o).2 ⟨o, hfe, rfl⟩]
        simp only [hfin]
      · simp at h

/-- C35: the comparison of `vcdiff test` reports a match exactly if `vcdiff decode` would restore the
target. -/
theorem cli_compare_iff (f : Cli.Flags) (hbuf : 0 < f.buffersize) (dict delta target : Bytes) (hne : delta ≠ [])
    (fuel : Nat) (hf : delta.length < fuel) :
    Cli.decodeAndCompare fuel f dict delta target = .ok true ↔
      Cli.decode fuel f dict (.file delta) = .ok ⟨true, target⟩ := by
  have hn := Cli.bufferSize_pos (i := .file delta) hbuf hne
  simp only [Cli.decode, Cli.decodeAndCompare, Cli.Input.content]
  have key1 := fun d' w => Cli.decodeLoop_iff hn hf (d := Cli.decoder f dict) (d' := d') (written := []) (w := w)
  have key2 := fun d' t' => Cli.compareLoop_iff hn hf (d := Cli.decoder f dict) (d' := d') (t := ⟨target, false⟩) (t' := t')
  constructor
  · intro h
    cases hl : Cli.compareLoop fuel (Cli.bufferSize f.buffersize (.file delta)) ⟨delta, false⟩
        (Cli.decoder f dict) ⟨target, false⟩ with
    | error x => rw [hl] at h; simp at h
    | ok o =>
      rw [hl] at h
      cases o with
      | none => simp at h
      | some p =>
        obtain ⟨d', t'⟩ := p
        simp only [Except.ok.injEq, Bool.and_eq_true, List.isEmpty_iff] at h
        obtain ⟨out, k1, k2, _⟩ := (key2 d' t').1 hl
        rw [h.2, List.append_nil] at k2
        simp only at k2
        rw [(key1 d' out).2 ⟨out, k1, rfl⟩, k2]
        simp only [h.1]
  · intro h
    cases hl : Cli.decodeLoop fuel (Cli.bufferSize f.buffersize (.file delta)) ⟨delta, false⟩
        (Cli.decoder f dict) [] with
    | error x => rw [hl] at h; simp at h
    | ok p =>
      obtain ⟨o, w⟩ := p
      rw [hl] at h
      cases o with
      | none => simp at h
      | some d' =>
        simp only [Except.ok.injEq, Cli.Result.mk.injEq] at h
        obtain ⟨out, k1, k2⟩ := (key1 d' w).1 hl
        rw [(key2 d' ⟨[], false⟩).2 ⟨out, k1, by rw [← h.2, k2]; simp, rfl⟩]
        simp [h.1]

/-- C35. `vcdiff encode` succeeds, `vcdiff decode` of its output (read from a file or from standard input,
with whatever buffer sizes) restores the target, and `vcdiff test` reports a match: for every dictionary and
target (read from standard input, or from a file that is not empty), as long as the chunks are within the
sizes of the format and the limits given to the decoder. -/
theorem cli_round_trip (f g : Cli.Flags) (hf : 0 < f.buffersize) (hg : 0 < g.buffersize) (hjson : f.json = false)
    (dict : Bytes) (target : Cli.Input) (hr : Readable target)
    (hdict : dict.length < 2 ^ 31)
    (h1 : dict.length + min f.buffersize target.content.length < 2 ^ 31)
    (h2 : min f.buffersize target.content.length + 64 < 2 ^ 31)
    (h3 : min f.buffersize target.content.length ≤ (cliSettings g).maxWindow)
    (h4 : target.content.length ≤ g.maxTargetFileSize) :
    ∃ delta, delta ≠ [] ∧
      (∀ fuel, target.content.length < fuel → Cli.encode fuel f dict target = .ok ⟨true, delta⟩) ∧
      (∀ fuel, delta.length < fuel → Cli.decode fuel g dict (.file delta) = .ok ⟨true, target.content⟩) ∧
      (∀ fuel, delta.length < fuel → Cli.decode fuel g dict (.stdin delta) = .ok ⟨true, target.content⟩) ∧
      (∀ fuel, delta.length < fuel → Cli.decodeAndCompare fuel g dict delta target.content = .ok true) ∧
      (g = f → target = .file target.content → ∀ fuel, target.content.length < fuel → delta.length < fuel →
        Cli.test fuel f dict target.content = .ok ⟨true, delta⟩) := by
  have hb : f.format &&& 4 = 0 := by
    simp only [Cli.Flags.format, hjson]
    cases f.interleaved <;> cases f.checksum <;> decide
  have e4 : (cliSettings g).maxFile = g.maxTargetFileSize := by
    simp only [cliSettings, Settings.after, List.foldl_cons, List.foldl_nil, Settings.step]
    split <;> rfl
  obtain ⟨chunks, c1, c2, c3⟩ := cli_encode_is_library f hf dict target hr
  have hs : ∀ data ∈ chunks, dict.length + data.length < 2 ^ 31 ∧ data.length + 64 < 2 ^ 31 :=
    fun data hm => ⟨by have := c2 data hm; omega, by have := c2 data hm; omega⟩
  obtain ⟨delta, d1, d2⟩ := round_trip dict hdict f.format hb f.targetMatches chunks hs (cliSettings g)
    (fun data hm => Nat.le_trans (c2 data hm) h3) (by rw [c1, e4]; exact h4)
  have n1 : delta ≠ [] := by
    obtain ⟨windows, w1, _⟩ := encode_is_header_and_windows dict hdict f.format hb f.targetMatches chunks hs
    rw [d1] at w1
    injection w1 with w1
    injection w1 with w1
    rw [w1]
    intro hc
    have hl := congrArg List.length hc
    have : 0 < (Writer.header f.format).length := by cases hfl : f.format <;> simp [Writer.header]
    simp only [List.length_append, List.length_nil] at hl
    omega
  have henc := c3 delta (by rw [Cli.cliFormat_eq]; exact d1)
  have n3 : ∀ cs : List Bytes, cs.flatten = delta →
      (configured (cliSettings g)).decode dict cs = some target.content := fun cs hcs => by rw [d2 cs hcs, c1]
  have hdec : ∀ delta', Readable delta' → delta'.content = delta → ∀ fuel, delta.length < fuel →
      Cli.decode fuel g dict delta' = .ok ⟨true, target.content⟩ := by
    intro delta' hrd hc fuel hfuel
    obtain ⟨chunks, c1, _, c3⟩ := cli_decode_is_library g hg dict delta' hrd
    exact (c3 _ fuel (by rw [hc]; exact hfuel)).2 (n3 chunks (by rw [c1, hc]))
  have hcmp : ∀ fuel, delta.length < fuel → Cli.decodeAndCompare fuel g dict delta target.content = .ok true :=
    fun fuel hfuel => (cli_compare_iff g hg dict delta target.content n1 fuel hfuel).2
      (hdec (.file delta) n1 rfl fuel hfuel)
  refine ⟨delta, n1, henc, hdec (.file delta) n1 rfl, hdec (.stdin delta) trivial rfl, hcmp, ?_⟩
  intro hgf ht fuel k1 k2
  subst hgf
  simp only [Cli.test]
  rw [← ht, henc fuel k1]
  simp only [Bool.true_eq_false, if_false]
  rw [hcmp fuel k2]

/-- The hypotheses are met by a small case with several chunks: a target of 10 bytes and buffers of 3 and
7. -/
example : let f : Cli.Flags := { buffersize := 3, checksum := true }
    let g : Cli.Flags := { buffersize := 7 }
    let target := List.replicate 10 (0x61 : UInt8)
    Readable (.file target) ∧ min f.buffersize target.length ≤ (cliSettings g).maxWindow ∧
      target.length ≤ g.maxTargetFileSize ∧ ([0x62] : Bytes).length + min f.buffersize target.length < 2 ^ 31 := by
  refine ⟨by simp [Readable], ?_⟩
  decide +kernel

/-- C35, where the command fails its users: a window size limit of 2^31 or more on the command line is not reported as an
error; `vcdiff decode` goes on with the default limit of 64 MB, whatever it is given. -/
theorem cli_large_limit_ignored (fuel n : Nat) (hn : 2 ^ 31 ≤ n) (f : Cli.Flags) (dict : Bytes) (delta : Cli.Input) :
    Cli.decode fuel { f with maxTargetWindowSize := n } dict delta =
      Cli.decode fuel { f with maxTargetWindowSize := 67108864 } dict delta := by
  have h : Cli.decoder { f with maxTargetWindowSize := n } dict =
      Cli.decoder { f with maxTargetWindowSize := 67108864 } dict := by
    simp only [Cli.decoder]
    congr 2
    simp only [Decoder.setMaxWin]
    rw [if_pos (show n > targetSizeLimit by simp only [targetSizeLimit]; omega), if_neg (by decide)]
    rfl
  unfold Cli.decode
  simp only [h]

/-- C35, where the command fails its users: on an empty regular file the loops of `vcdiff encode` and
`vcdiff decode` never end. The buffer is made to fit the file, so that nothing is asked for when reading, and
the end of the file is never noticed. -/
theorem cli_empty_file_never_ends (f : Cli.Flags) (dict : Bytes) (fuel : Nat) :
    (dict.length < 2 ^ 31 → f.json = false → Cli.encode fuel f dict (.file []) = .error .diverge) ∧
    Cli.decode fuel f dict (.file []) = .error .diverge := by
  have hbs : Cli.bufferSize f.buffersize (.file []) = 0 := by
    simp only [Cli.bufferSize, List.length_nil]
    split <;> omega
  constructor
  · intro hdict hjson
    have hb : f.format &&& 4 = 0 := by
      simp only [Cli.Flags.format, hjson]
      cases f.interleaved <;> cases f.checksum <;> decide
    obtain ⟨engine, window, h1, h2, _⟩ := encoder_protocol dict hdict f.format hb f.targetMatches
    obtain ⟨e', k⟩ := h2 [.start] (by intro data hm; simp at hm)
    simp only [Encoder.calls, protocol] at k
    simp only [Cli.encode, h1]
    cases hs : (Encoder.new engine f.format f.targetMatches).call .start with
    | error x => rw [hs] at k; simp at k
    | ok p =>
      obtain ⟨r, e⟩ := p
      rw [hs] at k
      simp only [Except.ok.injEq, Prod.mk.injEq, List.cons.injEq, and_true] at k
      have hr : r.ret = true := by rw [k.1]
      simp only [hr, Bool.true_eq_false, if_false, hbs, Cli.Input.content]
      have loop : ∀ fuel pending written, Cli.encodeLoop fuel 0 ⟨[], false⟩ e pending written = .error .diverge := by
        intro fuel
        induction fuel with
        | zero => intro _ _; rfl
        | succ fuel ih => intro pending written; simp [Cli.encodeLoop, Cli.Stream.fread, ih]
      rw [loop]
  · simp only [Cli.decode, hbs, Cli.Input.content]
    have loop : ∀ fuel written, Cli.decodeLoop fuel 0 ⟨[], false⟩ (Cli.decoder f dict) written = .error .diverge := by
      intro fuel
      induction fuel with
      | zero => intro _; rfl
      | succ fuel ih => intro written; simp [Cli.decodeLoop, Cli.Stream.fread, ih]
    rw [loop]

/-- Where `DecodeAndCompare` and the exit status agree with the contents: a target file that goes on after
the decoded data is reported as different. -/
theorem cli_compare_rejects (f : Cli.Flags) (hbuf : 0 < f.buffersize) (dict delta out target : Bytes) (hne : delta ≠ [])
    (fuel : Nat) (hf : delta.length < fuel)
    (hd : Cli.decode fuel f dict (.file delta) = .ok ⟨true, out⟩) (hdiff : out ≠ target) :
    Cli.decodeAndCompare fuel f dict delta target ≠ .ok true := by
  intro h
  have := (cli_compare_iff f hbuf dict delta target hne fuel hf).1 h
  rw [hd] at this
  simp only [Except.ok.injEq, Cli.Result.mk.injEq, true_and] at this
  exact hdiff this

end Props
end Vcd
