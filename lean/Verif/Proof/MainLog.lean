import Verif.Proof.MainRun
import Verif.Proof.LogCalls
import Verif.Proof.EncoderLog
import Verif.Spec.MainLog

/-! Lemmas about the lines that the command writes to standard error. -/

namespace Vcd.Cli
open Spec

theorem errors_append (a b : List Line) : errors (a ++ b) = errors a + errors b := by simp [errors]

theorem errors_nil : errors [] = 0 := rfl

theorem errors_own (e : CommandError) : errors [.own e] = 1 := rfl

theorem errors_decoder (l : List Message) : errors (l.map .decoder) = 0 := by
  simp [errors, Line.isOwn]

theorem errors_encoder (l : List EncoderMessage) : errors (l.map .encoder) = 0 := by
  simp [errors, Line.isOwn]

/-- The function returns false. -/
def Turn.failed {σ : Type} : Turn σ → Bool
  | .fail _ => true
  | _ => false

theorem again_failed {σ : Type} (st : Stage σ) : st.again.failed = false := by
  unfold Stage.again; split <;> rfl

theorem turnsLog_errors {σ : Type} {turn : Stage σ → Except Fault (Turn σ)} {log : Stage σ → List Line}
    (h : ∀ st r, turn st = .ok r → errors (log st) = r.failed.toNat) {n : Nat} {st : Stage σ} {r : Turn σ}
    (hr : turns turn n st = .ok r) : errors (turnsLog turn log n st) = r.failed.toNat := by
  induction n generalizing st with
  | zero =>
    simp only [turns, Except.ok.injEq] at hr
    subst hr
    rfl
  | succ n ih =>
    rw [turns] at hr
    rw [turnsLog, errors_append]
    cases ht : turn st with
    | error f => simp [ht] at hr
    | ok q =>
      rw [ht] at hr
      rw [h st q ht]
      cases q with
      | next st' => simp only [ih hr]; simp [Turn.failed]
      | last st' => simp only [Except.ok.injEq] at hr; subst hr; rfl
      | fail st' => simp only [Except.ok.injEq] at hr; subst hr; rfl

section
variable {t : Trouble}

theorem encodeTurnLog_errors {size : Nat} {st : Stage Encoder} {r : Turn Encoder} (hr : encodeTurn t size st = .ok r) :
    errors (encodeTurnLog t size st) = r.failed.toNat := by
  unfold encodeTurn at hr
  unfold encodeTurnLog
  cases hw : writeOutput t st.sys st.out st.pending with
  | mk sys p =>
    obtain ⟨out, ok⟩ := p
    rw [hw] at hr
    dsimp only at hr ⊢
    cases ok with
    | false => simp only [if_true, Except.ok.injEq] at hr ⊢; subst hr; rfl
    | true =>
      simp only [Bool.true_eq_false, if_false] at hr ⊢
      cases hf : st.input.fread t sys size with
      | none => simp only [hf, Except.ok.injEq] at hr ⊢; subst hr; rfl
      | some q =>
        obtain ⟨data, input⟩ := q
        simp only [hf] at hr ⊢
        by_cases h0 : data = []
        · simp only [h0, if_true, Except.ok.injEq] at hr ⊢; subst hr; rw [again_failed]; rfl
        · simp only [h0, if_false] at hr ⊢
          rw [errors_append, errors_encoder]
          cases hc : st.coder.call (.chunk data) with
          | error f => simp [hc] at hr
          | ok q =>
            obtain ⟨rep, coder⟩ := q
            simp only [hc] at hr ⊢
            cases hret : rep.ret with
            | false => simp only [hret, if_true, Except.ok.injEq] at hr ⊢; subst hr; rfl
            | true => simp only [hret, Bool.true_eq_false, if_false, Except.ok.injEq] at hr ⊢; subst hr; rw [again_failed]; rfl

theorem decodeTurnLog_errors {size : Nat} {st : Stage Decoder} {r : Turn Decoder} (hr : decodeTurn t size st = .ok r) :
    errors (decodeTurnLog t size st) = r.failed.toNat := by
  unfold decodeTurn at hr
  unfold decodeTurnLog
  cases hf : st.input.fread t st.sys size with
  | none => simp only [hf, Except.ok.injEq] at hr ⊢; subst hr; rfl
  | some q =>
    obtain ⟨data, input⟩ := q
    simp only [hf] at hr ⊢
    by_cases h0 : data = []
    · simp only [h0, if_true, Except.ok.injEq] at hr ⊢; subst hr; rw [again_failed]; rfl
    · simp only [h0, if_false] at hr ⊢
      rw [errors_append, errors_decoder]
      cases hc : st.coder.call (.chunk data) with
      | error f => simp [hc] at hr
      | ok q =>
        obtain ⟨rep, coder⟩ := q
        simp only [hc] at hr ⊢
        cases hret : rep.ret with
        | false => simp only [hret, if_true, Except.ok.injEq] at hr ⊢; subst hr; rfl
        | true =>
          simp only [hret, Bool.true_eq_false, if_false] at hr ⊢
          cases hw : writeOutput t st.sys st.out rep.out with
          | mk sys p =>
            obtain ⟨out, ok⟩ := p
            rw [hw] at hr
            dsimp only at hr ⊢
            cases ok with
            | false => simp only [if_true, Except.ok.injEq] at hr ⊢; subst hr; rfl
            | true => simp only [Bool.true_eq_false, if_false, Except.ok.injEq] at hr ⊢; subst hr; rw [again_failed]; rfl

theorem compareFileLog_errors (s : System) (f : InFile) (output : Bytes) :
    compareFileLog t s f output = [] ∧ (compareFile t s f output).isSome = true ∨
      (∃ e, compareFileLog t s f output = [.own e]) ∧ compareFile t s f output = none := by
  unfold compareFileLog compareFile
  split
  · exact Or.inl ⟨rfl, rfl⟩
  · cases f.fread t s output.length with
    | none => exact Or.inr ⟨⟨_, rfl⟩, rfl⟩
    | some p =>
      dsimp only
      split
      · exact Or.inr ⟨⟨_, rfl⟩, rfl⟩
      · split
        · exact Or.inl ⟨rfl, rfl⟩
        · exact Or.inr ⟨⟨_, rfl⟩, rfl⟩

theorem compareTurnLog_errors {size : Nat} {st : Stage (Decoder × InFile)} {r : Turn (Decoder × InFile)} (hr : compareTurn t size st = .ok r) :
    errors (compareTurnLog t size st) = r.failed.toNat := by
  unfold compareTurn at hr
  unfold compareTurnLog
  cases hf : st.input.fread t st.sys size with
  | none => simp only [hf, Except.ok.injEq] at hr ⊢; subst hr; rfl
  | some q =>
    obtain ⟨data, input⟩ := q
    simp only [hf] at hr ⊢
    by_cases h0 : data = []
    · simp only [h0, if_true, Except.ok.injEq] at hr ⊢; subst hr; rw [again_failed]; rfl
    · simp only [h0, if_false] at hr ⊢
      rw [errors_append, errors_decoder]
      cases hc : st.coder.1.call (.chunk data) with
      | error f => simp [hc] at hr
      | ok q =>
        obtain ⟨rep, coder⟩ := q
        simp only [hc] at hr ⊢
        cases hret : rep.ret with
        | false => simp only [hret, if_true, Except.ok.injEq] at hr ⊢; subst hr; rfl
        | true =>
          simp only [hret, Bool.true_eq_false, if_false] at hr ⊢
          rcases compareFileLog_errors (t := t) st.sys st.coder.2 rep.out with ⟨k1, k2⟩ | ⟨⟨e, k1⟩, k2⟩
          · obtain ⟨f', k2⟩ := Option.isSome_iff_exists.1 k2
            simp only [k2, Except.ok.injEq] at hr
            rw [k1, ← hr, again_failed]
            rfl
          · simp only [k2, Except.ok.injEq] at hr
            rw [k1, ← hr]
            rfl

theorem openDictionaryLog_errors (s : System) (name : String) :
    (openDictionaryLog t s name = [] ∧ (openDictionary t s name).isSome = true) ∨
      (∃ e, openDictionaryLog t s name = [.own e]) ∧ openDictionary t s name = none := by
  unfold openDictionaryLog openDictionary
  split
  · exact Or.inr ⟨⟨_, rfl⟩, rfl⟩
  · cases s.files name with
    | none => exact Or.inr ⟨⟨_, rfl⟩, rfl⟩
    | some content =>
      dsimp only
      split
      · exact Or.inr ⟨⟨_, rfl⟩, rfl⟩
      · cases t.damage name with
        | none => exact Or.inl ⟨rfl, rfl⟩
        | some k =>
          dsimp only
          split
          · exact Or.inr ⟨⟨_, rfl⟩, rfl⟩
          · exact Or.inl ⟨rfl, rfl⟩

theorem openForReadingLog_errors (s : System) (flag : Nat) (name : String) :
    (openForReadingLog t s name = [] ∧ (openForReading t s flag name).isSome = true) ∨
      (∃ e, openForReadingLog t s name = [.own e]) ∧ openForReading t s flag name = none := by
  unfold openForReadingLog openForReading
  split
  · exact Or.inl ⟨rfl, rfl⟩
  · split
    · exact Or.inr ⟨⟨_, rfl⟩, rfl⟩
    · cases s.files name with
      | none => exact Or.inr ⟨⟨_, rfl⟩, rfl⟩
      | some content =>
        dsimp only
        split
        · exact Or.inr ⟨⟨_, rfl⟩, rfl⟩
        · exact Or.inl ⟨rfl, rfl⟩

theorem openOutputLog_errors (s : System) (name : String) :
    (openOutputLog t name = [] ∧ (openOutput t s name).isSome = true) ∨
      (∃ e, openOutputLog t name = [.own e]) ∧ openOutput t s name = none := by
  unfold openOutputLog openOutput
  split
  · exact Or.inl ⟨rfl, rfl⟩
  · split
    · exact Or.inr ⟨⟨_, rfl⟩, rfl⟩
    · exact Or.inl ⟨rfl, rfl⟩

theorem openFilesLog_errors (s : System) (flag : Nat) (d i o : String) :
    (openFilesLog t s flag d i o = [] ∧ (openFiles t s flag d i o).isSome = true) ∨
      (∃ e, openFilesLog t s flag d i o = [.own e]) ∧ openFiles t s flag d i o = none := by
  unfold openFilesLog openFiles
  rcases openDictionaryLog_errors (t := t) s d with ⟨h1, h2⟩ | ⟨⟨e, h1⟩, h2⟩
  · obtain ⟨dict, h2⟩ := Option.isSome_iff_exists.1 h2
    simp only [h1, h2, List.nil_append]
    rcases openForReadingLog_errors (t := t) s flag i with ⟨h3, h4⟩ | ⟨⟨e, h3⟩, h4⟩
    · obtain ⟨⟨f, size⟩, h4⟩ := Option.isSome_iff_exists.1 h4
      simp only [h3, h4, List.nil_append]
      rcases openOutputLog_errors (t := t) s o with ⟨h5, h6⟩ | ⟨⟨e, h5⟩, h6⟩
      · obtain ⟨⟨sys, out⟩, h6⟩ := Option.isSome_iff_exists.1 h6
        simp [h5, h6]
      · simp [h5, h6]
    · simp [h3, h4]
  · simp [h1, h2]

theorem runEncodeLog_errors {n : Nat} {a : Args} {s : System} {r : Run} (h : runEncode n t a s = .ok r) :
    errors (runEncodeLog n t a s) = if r.status = some 1 then 1 else 0 := by
  unfold runEncode at h
  unfold runEncodeLog
  rcases openFilesLog_errors (t := t) s a.flags.buffersize a.dictionary a.target a.delta with ⟨h1, h2⟩ | ⟨⟨e, h1⟩, h2⟩
  · obtain ⟨⟨dict, input, size, sys, out⟩, h2⟩ := Option.isSome_iff_exists.1 h2
    simp only [h1, h2, List.nil_append] at h ⊢
    cases hi : Engine.init dict with
    | error f => simp [hi] at h
    | ok o =>
      cases o with
      | none => simp only [hi, Except.ok.injEq] at h ⊢; rw [← h]; rfl
      | some engine =>
        simp only [hi] at h ⊢
        rw [errors_append, errors_encoder, Nat.zero_add]
        cases hs : (Encoder.new engine a.flags.format a.flags.targetMatches).call .start with
        | error f => simp [hs] at h
        | ok p =>
          obtain ⟨rep, coder⟩ := p
          simp only [hs] at h ⊢
          cases hret : rep.ret with
          | false => simp only [hret, if_true, Except.ok.injEq] at h ⊢; rw [← h]; rfl
          | true =>
            simp only [hret, Bool.true_eq_false, if_false] at h ⊢
            rw [errors_append]
            cases ht : turns (encodeTurn t size) n { sys, input, coder, pending := rep.out, out } with
            | error f => simp [ht] at h
            | ok turn =>
              simp only [ht] at h ⊢
              rw [turnsLog_errors (fun st r => encodeTurnLog_errors) ht]
              cases turn with
              | next st => simp only [endEncode, Except.ok.injEq] at h; rw [← h]; rfl
              | fail st => simp only [endEncode, Except.ok.injEq] at h; rw [← h]; rfl
              | last st =>
                simp only [endEncode, endEncodeLog] at h ⊢
                rw [errors_append, errors_encoder]
                cases hc : st.coder.call .finish with
                | error f => simp [hc] at h
                | ok p =>
                  simp only [hc] at h ⊢
                  cases hw : writeOutput t st.sys st.out (st.pending ++ p.1.out) with
                  | mk sys q =>
                    obtain ⟨out, ok⟩ := q
                    simp only [hw, Except.ok.injEq] at h ⊢
                    rw [← h]
                    cases ok <;> rfl
  · simp only [h2, Except.ok.injEq] at h ⊢
    rw [h1, ← h]
    rfl

theorem runDecodeLog_errors {n : Nat} {a : Args} {s : System} {r : Run} (h : runDecode n t a s = .ok r) :
    errors (runDecodeLog n t a s) = if r.status = some 1 then 1 else 0 := by
  unfold runDecode at h
  unfold runDecodeLog
  rcases openFilesLog_errors (t := t) s a.flags.buffersize a.dictionary a.delta a.target with ⟨h1, h2⟩ | ⟨⟨e, h1⟩, h2⟩
  · obtain ⟨⟨dict, input, size, sys, out⟩, h2⟩ := Option.isSome_iff_exists.1 h2
    simp only [h1, h2, List.nil_append] at h ⊢
    rw [errors_append, decoderLog, errors_decoder, errors_append]
    cases ht : turns (decodeTurn t size) n { sys, input, coder := decoder a.flags dict, pending := [], out } with
    | error f => simp [ht] at h
    | ok turn =>
      simp only [ht, Except.ok.injEq] at h ⊢
      rw [turnsLog_errors (fun st r => decodeTurnLog_errors) ht, ← h]
      cases turn with
      | next st => rfl
      | fail st => rfl
      | last st =>
        simp only [endDecode, endDecodeLog, errors_append, errors_decoder]
        by_cases hfin : st.coder.finish.1 = true
        · simp [hfin, Turn.failed, errors_nil]
        · simp [hfin, Turn.failed, errors_own]
  · simp only [h2, Except.ok.injEq] at h ⊢
    rw [h1, ← h]
    rfl

theorem runCompareLog_errors {n : Nat} {a : Args} {s : System} {r : Run} (h : runCompare n t a s = .ok r) :
    errors (runCompareLog n t a s) = if r.status = some 1 then 1 else 0 := by
  unfold runCompare at h
  unfold runCompareLog
  rcases openDictionaryLog_errors (t := t) s a.dictionary with ⟨h1, h2⟩ | ⟨⟨e, h1⟩, h2⟩
  · obtain ⟨dict, h2⟩ := Option.isSome_iff_exists.1 h2
    simp only [h1, h2, List.nil_append] at h ⊢
    rcases openForReadingLog_errors (t := t) s a.flags.buffersize a.delta with ⟨h3, h4⟩ | ⟨⟨e, h3⟩, h4⟩
    · obtain ⟨⟨input, size⟩, h4⟩ := Option.isSome_iff_exists.1 h4
      simp only [h3, h4, List.nil_append] at h ⊢
      rcases openForReadingLog_errors (t := t) s a.flags.buffersize a.target with ⟨h5, h6⟩ | ⟨⟨e, h5⟩, h6⟩
      · obtain ⟨⟨target, size'⟩, h6⟩ := Option.isSome_iff_exists.1 h6
        simp only [h5, h6, List.nil_append] at h ⊢
        rw [errors_append, decoderLog, errors_decoder, errors_append]
        cases ht : turns (compareTurn t size) n
            { sys := s, input, coder := (decoder a.flags dict, target), pending := [], out := { name := "" } } with
        | error f => simp [ht] at h
        | ok turn =>
          simp only [ht, Except.ok.injEq] at h ⊢
          rw [turnsLog_errors (fun st r => compareTurnLog_errors) ht, ← h]
          cases turn with
          | next st => rfl
          | fail st => rfl
          | last st =>
            simp only [endCompare, endCompareLog, errors_append, errors_decoder]
            by_cases hfin : st.coder.1.finish.1 = false
            · simp [hfin, Turn.failed, errors_own]
            · simp only [hfin]
              cases st.coder.2.fread t s 1 with
              | none => rfl
              | some p =>
                dsimp only
                by_cases h0 : p.1 = []
                · simp [h0, Turn.failed, errors_nil]
                · simp [h0, Turn.failed, errors_own]
      · simp only [h6, Except.ok.injEq] at h ⊢
        rw [h5, ← h]
        rfl
    · simp only [h4, Except.ok.injEq] at h ⊢
      rw [h3, ← h]
      rfl
  · simp only [h2, Except.ok.injEq] at h ⊢
    rw [h1, ← h]
    rfl

theorem mainLog_errors {n : Nat} {a : Args} {s : System} {r : Run} (h : main n t a s = .ok r) :
    errors (mainLog n t a s) = if r.status = some 1 then 1 else 0 := by
  unfold main at h
  unfold mainLog
  dsimp only at h ⊢
  split at h
  · rename_i command hr
    rw [hr]
    dsimp only
    by_cases h1 : a.dictionary = ""
    · simp only [h1, if_true, Except.ok.injEq] at h ⊢; rw [← h]; rfl
    simp only [h1, if_false] at h ⊢
    by_cases h2 : a.flags.buffersize = 0
    · simp only [h2, if_true, Except.ok.injEq] at h ⊢; rw [← h]; rfl
    simp only [h2, if_false] at h ⊢
    by_cases h3 : command = "encode" ∨ command = "delta"
    · simp only [h3, if_true] at h ⊢; exact runEncodeLog_errors h
    simp only [h3, if_false] at h ⊢
    by_cases h4 : command = "decode" ∨ command = "patch"
    · simp only [h4, if_true] at h ⊢; exact runDecodeLog_errors h
    simp only [h4, if_false] at h ⊢
    by_cases h5 : command = "test"
    · simp only [h5, if_true] at h ⊢
      by_cases h6 : a.target = "" ∨ a.delta = ""
      · simp only [h6, if_true, Except.ok.injEq] at h ⊢; rw [← h]; rfl
      simp only [h6, if_false] at h ⊢
      rw [errors_append]
      cases he : runEncode n t a { s with stdout := [] } with
      | error f => simp [he] at h
      | ok q =>
        simp only [he] at h ⊢
        rw [runEncodeLog_errors he]
        by_cases h0 : q.status = some 0
        · simp only [h0, if_true] at h ⊢
          rw [runCompareLog_errors h]
          simp
        · simp only [h0, if_false, Except.ok.injEq] at h ⊢
          rw [h, errors_nil, Nat.add_zero]
    · simp only [h5, if_false, Except.ok.injEq] at h ⊢; rw [← h]; rfl
  · rename_i hr
    simp only [Except.ok.injEq] at h
    rw [← h]
    split
    · rename_i c hc; exact absurd hc (hr c)
    · rfl

/-! ## Silence -/

/-- The lines of the turns, if the function does not return false in them. -/
theorem turnsLog_lines {σ : Type} {turn : Stage σ → Except Fault (Turn σ)} {log : Stage σ → List Line} {P : Stage σ → Prop} {Q : Line → Prop}
    (h : ∀ st r, P st → turn st = .ok r → r.failed = false → (∀ l ∈ log st, Q l) ∧ P r.stage) {n : Nat} {st : Stage σ} {r : Turn σ}
    (hp : P st) (hr : turns turn n st = .ok r) (hf : r.failed = false) : (∀ l ∈ turnsLog turn log n st, Q l) ∧ P r.stage := by
  induction n generalizing st with
  | zero =>
    simp only [turns, Except.ok.injEq] at hr
    subst hr
    exact ⟨by simp [turnsLog], hp⟩
  | succ n ih =>
    rw [turns] at hr
    rw [turnsLog]
    cases ht : turn st with
    | error f => simp [ht] at hr
    | ok q =>
      rw [ht] at hr
      cases q with
      | next st' =>
        dsimp only at hr ⊢
        obtain ⟨h1, h2⟩ := h st _ hp ht rfl
        obtain ⟨h3, h4⟩ := ih h2 hr
        refine ⟨?_, h4⟩
        intro l hl
        rcases List.mem_append.1 hl with hl | hl
        · exact h1 l hl
        · exact h3 l hl
      | last st' =>
        simp only [Except.ok.injEq] at hr
        subst hr
        have := h st _ hp ht rfl
        simpa using this
      | fail st' =>
        simp only [Except.ok.injEq] at hr
        subst hr
        simp [Turn.failed] at hf

/-- A decoder that is in the middle of a file. -/
def InFileAt (d : Decoder) (x : Bytes) : Prop := PassedInv d (true, x) ∧ DecTyped d

theorem InFileAt.chunk {d d' : Decoder} {x data : Bytes} {r : DecoderReply} (h : InFileAt d x) (hc : d.call (.chunk data) = .ok (r, d'))
    (hr : r.ret = true) : InFileAt d' (x ++ data) ∧ ∀ m ∈ d.callLog (.chunk data), m = .badTable ∧ CustomTable (x ++ data) := by
  refine ⟨⟨?_, h.2.call hc⟩, ?_⟩
  · have := h.1.call h.2.inv hc
    simpa [fileStep, hr] using this
  · have hm : misuse d.top.started (.chunk data) = none := by
      rw [← h.1.1]; rfl
    intro m hm'
    have k1 := callLog_explains serious_ne h.2 (.chunk data)
      (fun data _ => decodeChunk_explains serious_ne validateLog_not_serious _ _ _ _) hc
    refine ⟨?_, ?_⟩
    · by_cases hb : m = .badTable
      · exact hb
      · have := k1.1 ⟨m, hm', hb⟩
        simp [hr, hm] at this
    · by_cases hp : CustomTable (x ++ data)
      · exact hp
      · have k2 := callLog_explains serious_true h.2 (.chunk data)
          (fun data' he => by cases he; exact plain_chunk_explains serious_true h.1 hp) hc
        have := k2.1 ⟨m, hm', trivial⟩
        simp [hr, hm] at this

theorem InFileAt.feed {d d' : Decoder} {x o : Bytes} {cs : List Bytes} (h : InFileAt d x) (hf : d.feed cs = some (o, d')) :
    InFileAt d' (x ++ cs.flatten) := by
  induction cs generalizing d x o with
  | nil =>
    simp only [Decoder.feed, Option.some.injEq, Prod.mk.injEq] at hf
    rw [← hf.2]
    simpa using h
  | cons c cs ih =>
    simp only [Decoder.feed] at hf
    split at hf
    · rename_i d1 out hd
      split at hf
      · rename_i o2 d2 hf2
        simp only [Option.some.injEq, Prod.mk.injEq] at hf
        obtain ⟨_, rfl⟩ := hf
        have := ih (h.chunk (call_chunk_ok.2 hd) rfl).1 hf2
        simpa using this
      · simp at hf
    · simp at hf

theorem InFileAt.finish {d d' : Decoder} {x : Bytes} {r : DecoderReply} (h : InFileAt d x) (hc : d.call .finish = .ok (r, d'))
    (hr : r.ret = true) : d.callLog .finish = [] := by
  have k2 := callLog_explains serious_true h.2 .finish (fun data' he => by cases he) hc
  rw [reported_true] at k2
  have hm : misuse d.top.started .finish = none := rfl
  simpa [hr, hm] using k2

theorem decoder_inFile (f : Flags) (dict : Bytes) : InFileAt (decoder f dict) [] := by
  have hcs : ∃ rs, Decoder.calls {} [.setMaxFile f.maxTargetFileSize, .setMaxWin f.maxTargetWindowSize, .setAllowTarget f.allowVcdTarget,
      .start dict] = .ok (rs, decoder f dict) := ⟨_, rfl⟩
  obtain ⟨rs, hcs⟩ := hcs
  refine ⟨?_, DecTyped.new.calls hcs⟩
  have := PassedInv.new.calls DecInv.new hcs
  have hrs : ∃ a b c d, rs = [a, b, c, d] := by
    simp only [Decoder.calls, Decoder.call, Except.ok.injEq, Prod.mk.injEq] at hcs
    exact ⟨_, _, _, _, hcs.1.symm⟩
  obtain ⟨a, b, c, d, rfl⟩ := hrs
  exact this

theorem decoderLog_nil {f : Flags} (hl : f.maxTargetWindowSize ≤ targetSizeLimit) (dict : Bytes) : decoderLog f dict = [] := by
  have t0 := DecTyped.new
  have t1 : DecTyped (({} : Decoder).setMaxFile f.maxTargetFileSize).2 := t0.call (c := .setMaxFile f.maxTargetFileSize) rfl
  have t2 : DecTyped ((({} : Decoder).setMaxFile f.maxTargetFileSize).2.setMaxWin f.maxTargetWindowSize).2 :=
    t1.call (c := .setMaxWin f.maxTargetWindowSize) rfl
  have t3 : DecTyped (((({} : Decoder).setMaxFile f.maxTargetFileSize).2.setMaxWin f.maxTargetWindowSize).2.setAllowTarget f.allowVcdTarget) :=
    t2.call (c := .setAllowTarget f.allowVcdTarget) rfl
  have h2 : ((({} : Decoder).setMaxFile f.maxTargetFileSize).2.setMaxWin f.maxTargetWindowSize).2.top.started = false := by
    simp only [Decoder.setMaxWin]; split <;> rfl
  have h3 : (((({} : Decoder).setMaxFile f.maxTargetFileSize).2.setMaxWin f.maxTargetWindowSize).2.setAllowTarget
      f.allowVcdTarget).top.started = false := by
    simp only [Decoder.setAllowTarget, h2]; rfl
  have hw : ¬ f.maxTargetWindowSize > targetSizeLimit := by omega
  simp only [decoderLog, Decoder.callsLog, Decoder.callLog, Decoder.call, passingLog_nil t0, passingLog_nil t1, passingLog_nil t2,
    passingLog_nil t3, messageIf, h2, h3, hw, if_false, Bool.false_eq_true, List.append_nil, List.map_nil]

theorem customTable_prefix {x c : Bytes} (h : CustomTable x) (hp : x <+: c) : CustomTable c := by
  obtain ⟨y, rfl⟩ := hp
  obtain ⟨b, h1, h2⟩ := h
  refine ⟨b, ?_, h2⟩
  have hl : 4 < x.length := by
    by_cases hl : 4 < x.length
    · exact hl
    · rw [List.getElem?_eq_none (by omega)] at h1; cases h1
  rw [List.getElem?_append_left hl, h1]

theorem decodeTurnLog_lines {base : System} {inName outName : String} {c : Bytes} {f : Flags} {dict : Bytes}
    (hin : ∀ x, (base.put outName x).input inName = c) {size : Nat} {st : Stage Decoder} {r : Turn Decoder}
    (h : ∃ cs, DecAt t base inName outName c (decoder f dict) st cs) (hr : decodeTurn t size st = .ok r) (hf : r.failed = false) :
    (∀ l ∈ decodeTurnLog t size st, l = .decoder .badTable ∧ CustomTable c) ∧
      ∃ cs, DecAt t base inName outName c (decoder f dict) r.stage cs := by
  obtain ⟨cs, h⟩ := h
  refine ⟨?_, ?_⟩
  · have hc : st.sys.input st.input.name = c := by rw [h.sys, h.oname, h.iname, hin]
    have hat := (decoder_inFile f dict).feed h.fed
    rw [List.nil_append] at hat
    unfold decodeTurn at hr
    unfold decodeTurnLog
    cases hfr : st.input.fread t st.sys size with
    | none => simp only [hfr, Except.ok.injEq] at hr; subst hr; simp [Turn.failed] at hf
    | some q =>
      obtain ⟨data, input⟩ := q
      obtain ⟨f1, _, _, _, _, _⟩ := fread_spec hfr (by rw [hc]; exact h.off)
      simp only [hfr] at hr ⊢
      by_cases h0 : data = []
      · simp [h0]
      · simp only [h0, if_false] at hr ⊢
        cases hcall : st.coder.call (.chunk data) with
        | error f => simp [hcall] at hr
        | ok q =>
          obtain ⟨rep, coder⟩ := q
          simp only [hcall] at hr ⊢
          cases hret : rep.ret with
          | false => simp only [hret, if_true, Except.ok.injEq] at hr; subst hr; simp [Turn.failed] at hf
          | true =>
            simp only [hret, Bool.true_eq_false, if_false] at hr ⊢
            have hm := (hat.chunk hcall hret).2
            cases hw : writeOutput t st.sys st.out rep.out with
            | mk sys p =>
              obtain ⟨out, ok⟩ := p
              rw [hw] at hr
              dsimp only at hr ⊢
              cases ok with
              | false => simp only [if_true, Except.ok.injEq] at hr; subst hr; simp [Turn.failed] at hf
              | true =>
                simp only [Bool.true_eq_false, if_false, List.append_nil, List.mem_map, forall_exists_index, and_imp]
                rintro l m hml rfl
                obtain ⟨rfl, k2⟩ := hm m hml
                refine ⟨rfl, customTable_prefix k2 ?_⟩
                rw [h.read, f1, hc, take_add]
                exact List.take_prefix _ _
  · have := h.turn hin hr
    cases r with
    | next st' => exact this.1
    | last st' => exact this.1
    | fail st' => simp [Turn.failed] at hf

/-- What a `Decode` that succeeds may write. -/
theorem runDecodeLog_lines {n : Nat} {a : Args} {s : System} {r : Run} (hs : s.stdout = []) (hin : a.delta = "" ∨ a.delta ≠ a.target)
    (hl : a.flags.maxTargetWindowSize ≤ targetSizeLimit) (h : runDecode n t a s = .ok r) (h0 : r.status = some 0) :
    ∀ l ∈ runDecodeLog n t a s, l = .decoder .badTable ∧ CustomTable (s.input a.delta) := by
  unfold runDecode at h
  unfold runDecodeLog
  rcases openFilesLog_errors (t := t) s a.flags.buffersize a.dictionary a.delta a.target with ⟨h1, h2⟩ | ⟨⟨e, h1⟩, h2⟩
  · obtain ⟨⟨dict, input, size, sys, out⟩, h2⟩ := Option.isSome_iff_exists.1 h2
    obtain ⟨k1, k2, k3, k4, k5⟩ := openFiles_some hs h2
    simp only [h1, h2, List.nil_append, decoderLog_nil hl] at h ⊢
    subst k2 k4 k5
    have hput : ∀ x, (s.put a.target x).input a.delta = s.input a.delta := fun x => System.put_input hin x
    have hA : DecAt t s a.delta a.target (s.input a.delta) (decoder a.flags dict)
        (Stage.mk (s.put a.target []) { name := a.delta } (decoder a.flags dict) [] { name := a.target }) [] :=
      ⟨congrArg (s.put a.target) disk_nil.symm, rfl, rfl, rfl, Nat.zero_le _, rfl, by simp⟩
    cases ht : turns (decodeTurn t size) n (Stage.mk (s.put a.target []) { name := a.delta } (decoder a.flags dict) [] { name := a.target }) with
    | error f => simp [ht] at h
    | ok turn =>
      simp only [ht, Except.ok.injEq] at h ⊢
      have hfail : turn.failed = false := by
        cases turn with
        | next st => rfl
        | last st => rfl
        | fail st => rw [← h] at h0; simp [endDecode] at h0
      obtain ⟨j1, j2⟩ := turnsLog_lines (P := fun st => ∃ cs, DecAt t s a.delta a.target (s.input a.delta) (decoder a.flags dict) st cs)
        (log := decodeTurnLog t size) (Q := fun l => l = .decoder .badTable ∧ CustomTable (s.input a.delta))
        (fun st r hp hr hf => decodeTurnLog_lines hput hp hr hf) ⟨[], hA⟩ ht hfail
      intro l hl'
      rcases List.mem_append.1 hl' with hl' | hl'
      · exact j1 l hl'
      · cases turn with
        | next st => simp [endDecodeLog] at hl'
        | fail st => simp [endDecodeLog] at hl'
        | last st =>
          have hfin : st.coder.finish.1 = true := by
            rw [← h] at h0
            simp only [endDecode] at h0
            by_cases hfin : st.coder.finish.1 = true
            · exact hfin
            · simp [hfin] at h0
          obtain ⟨cs, j2⟩ := j2
          have hat := (decoder_inFile a.flags dict).feed j2.fed
          have hlog := hat.finish (r := ⟨st.coder.finish.1, []⟩) (d' := st.coder.finish.2) rfl hfin
          simp only [endDecodeLog, hfin, if_true, List.append_nil] at hl'
          have : Turn.stage (Turn.last st) = st := rfl
          rw [this] at hlog
          rw [hlog] at hl'
          simp at hl'
  · simp only [h2, Except.ok.injEq] at h
    rw [← h] at h0
    simp at h0

theorem compareTurnLog_lines {s : System} {inName tName : String} {f : Flags} {dict : Bytes} {size : Nat} {st : Stage (Decoder × InFile)}
    {r : Turn (Decoder × InFile)} (h : ∃ cs, CmpAt s inName tName (decoder f dict) st cs) (hr : compareTurn t size st = .ok r)
    (hf : r.failed = false) : (∀ l ∈ compareTurnLog t size st, l = .decoder .badTable ∧ CustomTable (s.input inName)) ∧
      ∃ cs, CmpAt s inName tName (decoder f dict) r.stage cs := by
  obtain ⟨cs, h⟩ := h
  refine ⟨?_, ?_⟩
  · have hat := (decoder_inFile f dict).feed h.fed
    rw [List.nil_append] at hat
    have herr := compareTurnLog_errors hr
    rw [hf] at herr
    unfold compareTurn at hr
    unfold compareTurnLog at herr ⊢
    cases hfr : st.input.fread t st.sys size with
    | none => simp only [hfr, Except.ok.injEq] at hr; subst hr; simp [Turn.failed] at hf
    | some q =>
      obtain ⟨data, input⟩ := q
      obtain ⟨f1, _, _, _, _, _⟩ := fread_spec hfr (by rw [h.sys, h.iname]; exact h.off)
      simp only [hfr] at hr herr ⊢
      by_cases h0 : data = []
      · simp [h0]
      · simp only [h0, if_false] at hr herr ⊢
        cases hcall : st.coder.1.call (.chunk data) with
        | error f => simp [hcall] at hr
        | ok q =>
          obtain ⟨rep, coder⟩ := q
          simp only [hcall] at hr herr ⊢
          cases hret : rep.ret with
          | false => simp only [hret, if_true, Except.ok.injEq] at hr; subst hr; simp [Turn.failed] at hf
          | true =>
            simp only [hret, Bool.true_eq_false, if_false] at hr herr ⊢
            have hm := (hat.chunk hcall hret).2
            have hcmp : compareFileLog t st.sys st.coder.2 rep.out = [] := by
              rcases compareFileLog_errors (t := t) st.sys st.coder.2 rep.out with ⟨k1, _⟩ | ⟨_, k2⟩
              · exact k1
              · rw [k2] at hr
                simp only [Except.ok.injEq] at hr
                subst hr
                simp [Turn.failed] at hf
            rw [hcmp]
            simp only [List.append_nil, List.mem_map, forall_exists_index, and_imp]
            rintro l m hml rfl
            obtain ⟨rfl, k2⟩ := hm m hml
            refine ⟨rfl, customTable_prefix k2 ?_⟩
            rw [h.read, f1, h.sys, h.iname, take_add]
            exact List.take_prefix _ _
  · have := h.turn hr
    cases r with
    | next st' => exact this.1
    | last st' => exact this.1
    | fail st' => simp [Turn.failed] at hf

/-- What a `DecodeAndCompare` that succeeds may write. -/
theorem runCompareLog_lines {n : Nat} {a : Args} {s : System} {r : Run} (hl : a.flags.maxTargetWindowSize ≤ targetSizeLimit)
    (h : runCompare n t a s = .ok r) (h0 : r.status = some 0) :
    ∀ l ∈ runCompareLog n t a s, l = .decoder .badTable ∧ CustomTable (s.input a.delta) := by
  unfold runCompare at h
  unfold runCompareLog
  rcases openDictionaryLog_errors (t := t) s a.dictionary with ⟨h1, h2⟩ | ⟨⟨e, h1⟩, h2⟩
  · obtain ⟨dict, h2⟩ := Option.isSome_iff_exists.1 h2
    simp only [h1, h2, List.nil_append] at h ⊢
    rcases openForReadingLog_errors (t := t) s a.flags.buffersize a.delta with ⟨h3, h4⟩ | ⟨⟨e, h3⟩, h4⟩
    · obtain ⟨⟨input, size⟩, h4⟩ := Option.isSome_iff_exists.1 h4
      simp only [h3, h4, List.nil_append] at h ⊢
      rcases openForReadingLog_errors (t := t) s a.flags.buffersize a.target with ⟨h5, h6⟩ | ⟨⟨e, h5⟩, h6⟩
      · obtain ⟨⟨target, size'⟩, h6⟩ := Option.isSome_iff_exists.1 h6
        obtain ⟨i1, _⟩ := openForReading_some h4
        obtain ⟨t1, _⟩ := openForReading_some h6
        subst i1; subst t1
        simp only [h5, h6, List.nil_append, decoderLog_nil hl] at h ⊢
        have hA : CmpAt s a.delta a.target (decoder a.flags dict) (Stage.mk s { name := a.delta }
            (decoder a.flags dict, { name := a.target }) [] { name := "" }) [] :=
          ⟨rfl, rfl, rfl, Nat.zero_le _, by simp, rfl, Nat.zero_le _, rfl⟩
        cases ht : turns (compareTurn t size) n
            (Stage.mk s { name := a.delta } (decoder a.flags dict, { name := a.target }) [] { name := "" }) with
        | error f => simp [ht] at h
        | ok turn =>
          simp only [ht, Except.ok.injEq] at h ⊢
          have hfail : turn.failed = false := by
            cases turn with
            | next st => rfl
            | last st => rfl
            | fail st => rw [← h] at h0; simp [endCompare] at h0
          obtain ⟨j1, j2⟩ := turnsLog_lines (P := fun st => ∃ cs, CmpAt s a.delta a.target (decoder a.flags dict) st cs)
            (log := compareTurnLog t size) (Q := fun l => l = .decoder .badTable ∧ CustomTable (s.input a.delta))
            (fun st r hp hr hf => compareTurnLog_lines hp hr hf) ⟨[], hA⟩ ht hfail
          intro l hl'
          rcases List.mem_append.1 hl' with hl' | hl'
          · exact j1 l hl'
          · cases turn with
            | next st => simp [endCompareLog] at hl'
            | fail st => simp [endCompareLog] at hl'
            | last st =>
              obtain ⟨cs, j2⟩ := j2
              have hat := (decoder_inFile a.flags dict).feed j2.fed
              have : Turn.stage (Turn.last st) = st := rfl
              rw [this] at hat
              rw [← h] at h0
              simp only [endCompare] at h0
              simp only [endCompareLog] at hl'
              by_cases hfin : st.coder.1.finish.1 = false
              · simp [hfin] at h0
              · have hlog := hat.finish (r := ⟨st.coder.1.finish.1, []⟩) (d' := st.coder.1.finish.2) rfl (by simpa using hfin)
                simp only [hfin] at h0
                simp only [hlog, hfin, List.map_nil, List.nil_append] at hl'
                cases hfr : st.coder.2.fread t s 1 with
                | none => simp [hfr] at h0
                | some p =>
                  simp only [hfr] at h0 hl'
                  by_cases hp : p.1 = []
                  · simp [hp] at hl'
                  · simp [hp] at h0
      · simp only [h6, Except.ok.injEq] at h
        rw [← h] at h0
        simp at h0
    · simp only [h4, Except.ok.injEq] at h
      rw [← h] at h0
      simp at h0
  · simp only [h2, Except.ok.injEq] at h
    rw [← h] at h0
    simp at h0

theorem encodeTurnLog_nil {e0 : Encoder} {m : InstructionMap} (u : Writer.Usable defaultCoding 8 m) {dict : Bytes}
    (he : Engine.init dict = .ok (some e0.engine)) (hd : e0.engine.dictionary = dict) {size : Nat} (h1 : dict.length + size < 2 ^ 31)
    (h2 : size + 64 < 2 ^ 31) {st : Stage Encoder} {r : Turn Encoder}
    (h : Encoder.Inv e0 m st.coder ∧ st.coder.allowed = true) (hr : encodeTurn t size st = .ok r) (hf : r.failed = false) :
    (∀ l ∈ encodeTurnLog t size st, False) ∧ Encoder.Inv e0 m r.stage.coder ∧ r.stage.coder.allowed = true := by
  obtain ⟨h, hal⟩ := h
  unfold encodeTurn at hr
  unfold encodeTurnLog
  cases hw : writeOutput t st.sys st.out st.pending with
  | mk sys p =>
    obtain ⟨out, ok⟩ := p
    rw [hw] at hr
    dsimp only at hr ⊢
    cases ok with
    | false => simp only [if_true, Except.ok.injEq] at hr; subst hr; simp [Turn.failed] at hf
    | true =>
      simp only [Bool.true_eq_false, if_false] at hr ⊢
      cases hfr : st.input.fread t sys size with
      | none => simp only [hfr, Except.ok.injEq] at hr; subst hr; simp [Turn.failed] at hf
      | some q =>
        obtain ⟨data, input⟩ := q
        have hlen : data.length ≤ size := by
          unfold InFile.fread at hfr
          split at hfr
          · cases hfr
          · simp only [Option.some.injEq, Prod.mk.injEq] at hfr
            rw [← hfr.1]
            simp only [List.length_take]
            omega
        simp only [hfr] at hr ⊢
        by_cases h0 : data = []
        · simp only [h0, if_true, Except.ok.injEq] at hr ⊢
          subst hr
          refine ⟨by simp, ?_⟩
          unfold Stage.again
          split <;> exact ⟨h, hal⟩
        · simp only [h0, if_false] at hr ⊢
          cases hc : st.coder.call (.chunk data) with
          | error f => simp [hc] at hr
          | ok q =>
            obtain ⟨rep, coder⟩ := q
            have hsm : Encoder.Small dict data := ⟨by omega, by omega⟩
            simp only [hc] at hr ⊢
            cases hret : rep.ret with
            | false => simp only [hret, if_true, Except.ok.injEq] at hr; subst hr; simp [Turn.failed] at hf
            | true =>
              simp only [hret, Bool.true_eq_false, if_false, Except.ok.injEq] at hr ⊢
              subst hr
              have hlog := (Encoder.callLog_binary u he hd h (c := .chunk data) (by rintro d ⟨⟩; exact hsm) hc).2 hret
              refine ⟨by simp [hlog], ?_⟩
              obtain ⟨e', k1, k2⟩ := Encoder.calls_ok u he hd h (cs := [.chunk data]) (by intro d hd; simp at hd; subst hd; exact hsm)
              simp only [Encoder.calls, hc, Except.ok.injEq, Prod.mk.injEq] at k1
              rw [← k1.2] at k2
              unfold Stage.again
              split <;> exact ⟨k2, by rw [← hal]; exact chunk_allowed hc⟩

/-- An `Encode` in a binary format that succeeds writes nothing. -/
theorem runEncodeLog_nil {n : Nat} {a : Args} {s : System} {r : Run} (hs : s.stdout = []) (hjson : a.flags.json = false)
    {dict : Bytes} (hdict : s.files a.dictionary = some dict) (hl1 : dict.length + a.flags.buffersize < 2 ^ 31) (hl2 : a.flags.buffersize + 64 < 2 ^ 31)
    (h : runEncode n t a s = .ok r) (h0 : r.status = some 0) : runEncodeLog n t a s = [] := by
  have hb : a.flags.format &&& 4 = 0 := by
    simp only [Cli.Flags.format, hjson]
    cases a.flags.interleaved <;> cases a.flags.checksum <;> decide
  unfold runEncode at h
  unfold runEncodeLog
  rcases openFilesLog_errors (t := t) s a.flags.buffersize a.dictionary a.target a.delta with ⟨h1, h2⟩ | ⟨⟨e, h1⟩, h2⟩
  · obtain ⟨⟨dict', input, size, sys, out⟩, h2⟩ := Option.isSome_iff_exists.1 h2
    obtain ⟨k1, k2, k3, k4, k5⟩ := openFiles_some hs h2
    rw [hdict] at k1
    obtain rfl : dict = dict' := by simpa using k1
    have hsize : size ≤ a.flags.buffersize := by
      rcases k3 with ⟨_, h⟩ | ⟨_, h⟩ <;> omega
    simp only [h1, h2, List.nil_append] at h ⊢
    cases hi : Engine.init dict with
    | error f => simp [hi] at h
    | ok o =>
      cases o with
      | none => simp only [hi, Except.ok.injEq] at h; rw [← h] at h0; simp at h0
      | some engine =>
        obtain ⟨m, u⟩ := Encoder.usable
        obtain ⟨engine', hashed, q1, q2, _⟩ := Engine.init_ok (dict := dict) (by simp only [int32Max]; omega)
        rw [hi] at q1
        obtain rfl : engine = engine' := by simpa using q1
        have hd : engine.dictionary = dict := by rw [q2]
        simp only [hi] at h ⊢
        cases hst : (Encoder.new engine a.flags.format a.flags.targetMatches).call .start with
        | error f => simp [hst] at h
        | ok p =>
          obtain ⟨rep, coder⟩ := p
          simp only [hst] at h ⊢
          cases hret : rep.ret with
          | false => simp only [hret, if_true, Except.ok.injEq] at h; rw [← h] at h0; simp at h0
          | true =>
            simp only [hret, Bool.true_eq_false, if_false] at h ⊢
            have hi0 := Encoder.new_inv (engine := engine) (matching := a.flags.targetMatches) hb m
            have l1 := (Encoder.callLog_binary u hi hd hi0 (c := .start) (by simp) hst).2 hret
            obtain ⟨e', i1, i2⟩ := Encoder.calls_ok u hi hd hi0 (cs := [.start]) (by intro d hd; simp at hd)
            simp only [Encoder.calls, hst, Except.ok.injEq, Prod.mk.injEq] at i1
            rw [← i1.2] at i2
            cases ht : turns (encodeTurn t size) n { sys, input, coder, pending := rep.out, out } with
            | error f => simp [ht] at h
            | ok turn =>
              simp only [ht] at h ⊢
              have hfail : turn.failed = false := by
                cases turn with
                | next st => rfl
                | last st => rfl
                | fail st => simp only [endEncode, Except.ok.injEq] at h; rw [← h] at h0; simp at h0
              obtain ⟨j1, j2⟩ := turnsLog_lines (P := fun st => Encoder.Inv (Encoder.new engine a.flags.format a.flags.targetMatches) m st.coder ∧ st.coder.allowed = true)
                (Q := fun _ => False) (fun st r hp hr hf => encodeTurnLog_nil u hi hd (by omega) (by omega) hp hr hf)
                ⟨i2, start_allowed hst hret⟩ ht hfail
              rw [List.eq_nil_iff_forall_not_mem.2 j1, l1]
              cases turn with
              | next st => rfl
              | fail st => rfl
              | last st =>
                simp only [endEncode, endEncodeLog, List.map_nil, List.nil_append] at h ⊢
                cases hc : st.coder.call .finish with
                | error f => simp [hc] at h
                | ok p =>
                  simp only [hc] at h ⊢
                  cases hw : writeOutput t st.sys st.out (st.pending ++ p.1.out) with
                  | mk sys q =>
                    obtain ⟨out, ok⟩ := q
                    simp only [hw, Except.ok.injEq] at h ⊢
                    cases ok with
                    | false => rw [← h] at h0; simp at h0
                    | true =>
                      have hal : st.coder.allowed = true := j2.2
                      simp [Encoder.callLog, Encoder.finishLog, hal, noteIf]
  · simp only [h2, Except.ok.injEq] at h
    rw [← h] at h0
    simp at h0

end

/-! ### The trouble that is reported is there -/

theorem fread_damage {t : Trouble} {s : System} {f : InFile} {n : Nat} (h : f.fread t s n = none) : ∃ k, t.damage f.name = some k := by
  cases hd : t.damage f.name with
  | some k => exact ⟨k, rfl⟩
  | none => simp [InFile.fread, InFile.bad, hd] at h

theorem writeOutput_space {t : Trouble} {s : System} {f : OutFile} {x : Bytes} (h : (writeOutput t s f x).2.2 = false) : ∃ k, t.space f.name = some k := by
  cases hd : t.space f.name with
  | some k => exact ⟨k, rfl⟩
  | none =>
    unfold writeOutput at h
    split at h
    · simp at h
    · simp [OutFile.full, hd] at h

theorem turnsLog_all {σ : Type} {turn : Stage σ → Except Fault (Turn σ)} {log : Stage σ → List Line} {Q : Line → Prop}
    (h : ∀ st, ∀ l ∈ log st, Q l) (n : Nat) (st : Stage σ) : ∀ l ∈ turnsLog turn log n st, Q l := by
  induction n generalizing st with
  | zero => simp [turnsLog]
  | succ n ih =>
    rw [turnsLog]
    intro l hl
    rcases List.mem_append.1 hl with hl | hl
    · exact h st l hl
    · split at hl
      · exact ih _ l hl
      · simp at hl

theorem openDictionaryLog_true {t : Trouble} {s : System} {name : String} : ∀ l ∈ openDictionaryLog t s name, l.Truthful t s := by
  intro l hl
  unfold openDictionaryLog at hl
  split at hl
  · simp only [List.mem_singleton] at hl; subst hl; left; assumption
  · split at hl
    · simp only [List.mem_singleton] at hl; subst hl; right; left; assumption
    · split at hl
      · simp only [List.mem_singleton] at hl; subst hl; assumption
      · split at hl
        · simp at hl
        · split at hl
          · simp only [List.mem_singleton] at hl; subst hl; exact ⟨_, by assumption⟩
          · simp at hl

theorem openForReadingLog_true {t : Trouble} {s : System} {name : String} : ∀ l ∈ openForReadingLog t s name, l.Truthful t s := by
  intro l hl
  unfold openForReadingLog at hl
  split at hl
  · simp at hl
  · split at hl
    · simp only [List.mem_singleton] at hl; subst hl; left; assumption
    · split at hl
      · simp only [List.mem_singleton] at hl; subst hl; right; left; assumption
      · split at hl
        · simp only [List.mem_singleton] at hl; subst hl; assumption
        · simp at hl

theorem openOutputLog_true {t : Trouble} {s : System} {name : String} : ∀ l ∈ openOutputLog t name, l.Truthful t s := by
  intro l hl
  unfold openOutputLog at hl
  split at hl
  · simp at hl
  · split at hl
    · simp only [List.mem_singleton] at hl; subst hl; right; right; assumption
    · simp at hl

theorem openFilesLog_true {t : Trouble} {s : System} {flag : Nat} {d i o : String} : ∀ l ∈ openFilesLog t s flag d i o, l.Truthful t s := by
  intro l hl
  unfold openFilesLog at hl
  rcases List.mem_append.1 hl with hl | hl
  · exact openDictionaryLog_true l hl
  · split at hl
    · simp at hl
    · rcases List.mem_append.1 hl with hl | hl
      · exact openForReadingLog_true l hl
      · split at hl
        · simp at hl
        · exact openOutputLog_true l hl

theorem decoder_true {t : Trouble} {s : System} {ms : List Message} : ∀ l ∈ ms.map Line.decoder, l.Truthful t s := by
  intro l hl
  obtain ⟨m, _, rfl⟩ := List.mem_map.1 hl
  trivial

theorem encoder_true {t : Trouble} {s : System} {ms : List EncoderMessage} : ∀ l ∈ ms.map Line.encoder, l.Truthful t s := by
  intro l hl
  obtain ⟨m, _, rfl⟩ := List.mem_map.1 hl
  trivial

theorem encodeTurnLog_true {t : Trouble} {s : System} {size : Nat} (st : Stage Encoder) : ∀ l ∈ encodeTurnLog t size st, l.Truthful t s := by
  intro l hl
  unfold encodeTurnLog at hl
  cases hw : writeOutput t st.sys st.out st.pending with
  | mk sys x =>
    obtain ⟨out, ok⟩ := x
    simp only [hw] at hl
    by_cases hok : ok = false
    · rw [if_pos hok] at hl
      simp only [List.mem_singleton] at hl
      subst hl
      exact writeOutput_space (s := st.sys) (x := st.pending) (by rw [hw]; exact hok)
    · rw [if_neg hok] at hl
      cases hr : st.input.fread t sys size with
      | none => simp only [hr, List.mem_singleton] at hl; subst hl; exact fread_damage hr
      | some x =>
        simp only [hr] at hl
        split at hl
        · simp at hl
        · rcases List.mem_append.1 hl with hl | hl
          · exact encoder_true l hl
          · split at hl
            · simp at hl
            · split at hl
              · simp only [List.mem_singleton] at hl; subst hl; trivial
              · simp at hl

theorem decodeTurnLog_true {t : Trouble} {s : System} {size : Nat} (st : Stage Decoder) : ∀ l ∈ decodeTurnLog t size st, l.Truthful t s := by
  intro l hl
  unfold decodeTurnLog at hl
  cases hr : st.input.fread t st.sys size with
  | none => simp only [hr, List.mem_singleton] at hl; subst hl; exact fread_damage hr
  | some x =>
    simp only [hr] at hl
    split at hl
    · simp at hl
    · rcases List.mem_append.1 hl with hl | hl
      · exact decoder_true l hl
      · split at hl
        · simp at hl
        · split at hl
          · simp only [List.mem_singleton] at hl; subst hl; trivial
          · split at hl
            · simp only [List.mem_singleton] at hl; subst hl; exact writeOutput_space (by assumption)
            · simp at hl

theorem compareTurnLog_true {t : Trouble} {s : System} {size : Nat} (st : Stage (Decoder × InFile)) : ∀ l ∈ compareTurnLog t size st, l.Truthful t s := by
  intro l hl
  unfold compareTurnLog at hl
  cases hr : st.input.fread t st.sys size with
  | none => simp only [hr, List.mem_singleton] at hl; subst hl; exact fread_damage hr
  | some x =>
    simp only [hr] at hl
    split at hl
    · simp at hl
    · rcases List.mem_append.1 hl with hl | hl
      · exact decoder_true l hl
      · split at hl
        · simp at hl
        · split at hl
          · simp only [List.mem_singleton] at hl; subst hl; trivial
          · unfold compareFileLog at hl
            split at hl
            · simp at hl
            · split at hl
              · rename_i h; simp only [List.mem_singleton] at hl; subst hl; exact fread_damage h
              · split at hl
                · simp only [List.mem_singleton] at hl; subst hl; trivial
                · split at hl
                  · simp at hl
                  · simp only [List.mem_singleton] at hl; subst hl; trivial

theorem runEncodeLog_true {n : Nat} {t : Trouble} {a : Args} {s : System} : ∀ l ∈ runEncodeLog n t a s, l.Truthful t s := by
  intro l hl
  unfold runEncodeLog at hl
  rcases List.mem_append.1 hl with hl | hl
  · exact openFilesLog_true l hl
  · split at hl
    · simp at hl
    · split at hl
      · simp at hl
      · simp only [List.mem_singleton] at hl; subst hl; trivial
      · rcases List.mem_append.1 hl with hl | hl
        · exact encoder_true l hl
        · split at hl
          · simp at hl
          · split at hl
            · simp only [List.mem_singleton] at hl; subst hl; trivial
            · rcases List.mem_append.1 hl with hl | hl
              · exact turnsLog_all (fun st => encodeTurnLog_true st) _ _ l hl
              · split at hl
                · simp at hl
                · unfold endEncodeLog at hl
                  split at hl
                  · simp at hl
                  · simp at hl
                  · rcases List.mem_append.1 hl with hl | hl
                    · exact encoder_true l hl
                    · split at hl
                      · simp at hl
                      · split at hl
                        · simp only [List.mem_singleton] at hl; subst hl; exact writeOutput_space (by assumption)
                        · simp at hl

theorem runDecodeLog_true {n : Nat} {t : Trouble} {a : Args} {s : System} : ∀ l ∈ runDecodeLog n t a s, l.Truthful t s := by
  intro l hl
  unfold runDecodeLog at hl
  rcases List.mem_append.1 hl with hl | hl
  · exact openFilesLog_true l hl
  · split at hl
    · simp at hl
    · rcases List.mem_append.1 hl with hl | hl
      · exact decoder_true l hl
      · rcases List.mem_append.1 hl with hl | hl
        · exact turnsLog_all (fun st => decodeTurnLog_true st) _ _ l hl
        · split at hl
          · simp at hl
          · unfold endDecodeLog at hl
            split at hl
            · simp at hl
            · simp at hl
            · rcases List.mem_append.1 hl with hl | hl
              · exact decoder_true l hl
              · split at hl
                · simp at hl
                · simp only [List.mem_singleton] at hl; subst hl; trivial

theorem runCompareLog_true {n : Nat} {t : Trouble} {a : Args} {s : System} : ∀ l ∈ runCompareLog n t a s, l.Truthful t s := by
  intro l hl
  unfold runCompareLog at hl
  rcases List.mem_append.1 hl with hl | hl
  · exact openDictionaryLog_true l hl
  · split at hl
    · simp at hl
    · rcases List.mem_append.1 hl with hl | hl
      · exact openForReadingLog_true l hl
      · split at hl
        · simp at hl
        · rcases List.mem_append.1 hl with hl | hl
          · exact openForReadingLog_true l hl
          · split at hl
            · simp at hl
            · rcases List.mem_append.1 hl with hl | hl
              · exact decoder_true l hl
              · rcases List.mem_append.1 hl with hl | hl
                · exact turnsLog_all (fun st => compareTurnLog_true st) _ _ l hl
                · split at hl
                  · simp at hl
                  · unfold endCompareLog at hl
                    split at hl
                    · simp at hl
                    · simp at hl
                    · rcases List.mem_append.1 hl with hl | hl
                      · exact decoder_true l hl
                      · split at hl
                        · simp only [List.mem_singleton] at hl; subst hl; trivial
                        · split at hl
                          · simp only [List.mem_singleton] at hl; subst hl; trivial
                          · split at hl
                            · simp at hl
                            · simp only [List.mem_singleton] at hl; subst hl; trivial

/-- What is missing after more files have appeared was missing before. -/
theorem Line.Truthful.mono {t : Trouble} {s s' : System} {l : Line} (hs : ∀ x, s'.files x = none → s.files x = none) (h : l.Truthful t s') :
    l.Truthful t s := by
  unfold Line.Truthful at h ⊢
  split at h
  · exact h.imp id (Or.imp (hs _) id)
  all_goals exact h

end Vcd.Cli
