import Verif.Spec.Cli

/-! Lemmas about the loops of the command. -/

namespace Vcd.Cli
open Spec

/-- The successive reads of at most `n` bytes. -/
def pieces (n : Nat) : Nat → Bytes → List Bytes
  | 0, _ => []
  | fuel + 1, rest => if rest = [] then [] else rest.take n :: pieces n fuel (rest.drop n)

theorem pieces_nil (n fuel : Nat) : pieces n fuel [] = [] := by cases fuel <;> simp [pieces]

theorem pieces_flatten {n fuel : Nat} {rest : Bytes} (hn : 0 < n) (h : rest.length ≤ fuel) :
    (pieces n fuel rest).flatten = rest := by
  induction fuel generalizing rest with
  | zero => simp only [pieces]; exact (List.length_eq_zero_iff.1 (by omega)).symm
  | succ fuel ih =>
    simp only [pieces]
    split
    · rename_i h0; rw [h0]; rfl
    · rename_i h0
      have : 0 < rest.length := List.length_pos_iff.2 h0
      rw [List.flatten_cons, ih (by simp only [List.length_drop]; omega), List.take_append_drop]

/-- More turns than needed make no difference. -/
theorem pieces_fuel {n fuel : Nat} {rest : Bytes} (hn : 0 < n) (h : rest.length ≤ fuel) :
    pieces n fuel rest = pieces n rest.length rest := by
  have key : ∀ (fuel fuel' : Nat) (rest : Bytes), rest.length ≤ fuel → rest.length ≤ fuel' →
      pieces n fuel rest = pieces n fuel' rest := by
    intro fuel
    induction fuel with
    | zero =>
      intro fuel' rest h1 _
      have h0 := List.length_eq_zero_iff.1 (Nat.le_zero.1 h1)
      subst h0
      rw [pieces_nil, pieces_nil]
    | succ fuel ih =>
      intro fuel' rest h1 h2
      by_cases h0 : rest = []
      · subst h0; rw [pieces_nil, pieces_nil]
      · have hpos : 0 < rest.length := List.length_pos_iff.2 h0
        cases fuel' with
        | zero => omega
        | succ fuel' =>
          simp only [pieces, if_neg h0]
          rw [ih fuel' (rest.drop n) (by simp only [List.length_drop]; omega) (by simp only [List.length_drop]; omega)]
  exact key _ _ _ h (Nat.le_refl _)

theorem pieces_length {n fuel : Nat} {rest c : Bytes} (h : c ∈ pieces n fuel rest) :
    c.length ≤ min n rest.length := by
  induction fuel generalizing rest with
  | zero => simp [pieces] at h
  | succ fuel ih =>
    simp only [pieces] at h
    split at h
    · simp at h
    · rcases List.mem_cons.1 h with rfl | h
      · simp
      · have := ih h
        simp only [List.length_drop] at this
        omega

theorem encodeLoop_ok {n : Nat} (hn : 0 < n) {fuel : Nat} {rest : Bytes} (hf : rest.length < fuel) {e e' : Encoder}
    {rs : List EncoderReply} {pending written : Bytes}
    (h : e.calls ((pieces n fuel rest).map .chunk) = .ok (rs, e')) (hrs : ∀ r ∈ rs, r.ret = true) :
    ∃ p w, encodeLoop fuel n ⟨rest, false⟩ e pending written = .ok (some (e', p), w) ∧
      w ++ p = written ++ pending ++ rs.flatMap (·.out) := by
  induction fuel generalizing rest e rs pending written with
  | zero => omega
  | succ fuel ih =>
    simp only [pieces] at h
    by_cases h0 : rest = []
    · subst h0
      simp only [if_pos, List.map_nil, Encoder.calls] at h
      injection h with h
      injection h with h1 h2
      subst h1; subst h2
      refine ⟨[], written ++ pending, ?_, by simp⟩
      simp [encodeLoop, Stream.fread, hn]
    · have hpos : 0 < rest.length := List.length_pos_iff.2 h0
      have hd : rest.take n ≠ [] := by
        intro hc
        have := congrArg List.length hc
        simp only [List.length_take, List.length_nil] at this
        omega
      simp only [if_neg h0, List.map_cons, Encoder.calls] at h
      cases hc : e.call (.chunk (rest.take n)) with
      | error x => rw [hc] at h; simp at h
      | ok p =>
        obtain ⟨r, e1⟩ := p
        rw [hc] at h
        simp only at h
        cases hcs : e1.calls ((pieces n fuel (rest.drop n)).map .chunk) with
        | error x => rw [hcs] at h; simp at h
        | ok p =>
          obtain ⟨rs1, e2⟩ := p
          rw [hcs] at h
          simp only at h
          injection h with h
          injection h with h1 h2
          subst h1; subst h2
          have hr := hrs r (List.mem_cons_self ..)
          have hrs1 : ∀ r ∈ rs1, r.ret = true := fun x hx => hrs x (List.mem_cons_of_mem _ hx)
          simp only [encodeLoop, Stream.fread, if_neg hd, hc, hr, Bool.false_or, decide_eq_true_eq]
          by_cases he : rest.length < n
          · have hnil : rest.drop n = [] := List.drop_eq_nil_of_le (by omega)
            rw [hnil, pieces_nil] at hcs
            simp only [List.map_nil, Encoder.calls] at hcs
            injection hcs with hcs
            injection hcs with h1 h2
            subst h1; subst h2
            exact ⟨r.out, written ++ pending, by simp [he], by simp⟩
          · obtain ⟨p, w, k1, k2⟩ := ih (rest := rest.drop n) (by simp only [List.length_drop]; omega)
              (pending := r.out) (written := written ++ pending) hcs hrs1
            refine ⟨p, w, ?_, by rw [k2]; simp [List.append_assoc]⟩
            simp only [Bool.true_eq_false, if_false, he, decide_false]
            exact k1

/-- One `DecodeChunk` in the two ways it is described. -/
theorem call_chunk_ok {d d' : Decoder} {data out : Bytes} :
    d.call (.chunk data) = .ok (⟨true, out⟩, d') ↔ d.decodeChunk data = .ok d'.top d'.nested out := by
  simp only [Decoder.call]
  cases d.decodeChunk data with
  | ok L nested o =>
    constructor
    · intro h
      simp only [Except.ok.injEq, Prod.mk.injEq, DecoderReply.mk.injEq, true_and] at h
      obtain ⟨h1, h2⟩ := h
      subst h1; subst h2
      rfl
    · intro h
      simp only [ChunkResult.ok.injEq] at h
      obtain ⟨h1, h2, h3⟩ := h
      subst h1; subst h2; subst h3
      rfl
  | error L o => simp
  | fault f => simp

/-- What the loop of `Decode` does is what feeding the pieces does. -/
theorem decodeLoop_iff {n : Nat} (hn : 0 < n) {fuel : Nat} {rest : Bytes} (hf : rest.length < fuel) {d d' : Decoder}
    {written w : Bytes} :
    decodeLoop fuel n ⟨rest, false⟩ d written = .ok (some d', w) ↔
      ∃ out, d.feed (pieces n fuel rest) = some (out, d') ∧ w = written ++ out := by
  induction fuel generalizing rest d written with
  | zero => omega
  | succ fuel ih =>
    by_cases h0 : rest = []
    · subst h0
      simp only [decodeLoop, Stream.fread, List.take_nil, if_pos, List.length_nil, hn, Bool.false_or, decide_true, pieces, Decoder.feed,
        Except.ok.injEq, Prod.mk.injEq, Option.some.injEq]
      constructor
      · rintro ⟨rfl, rfl⟩; exact ⟨[], ⟨rfl, rfl⟩, by simp⟩
      · rintro ⟨out, ⟨rfl, rfl⟩, rfl⟩; exact ⟨rfl, by simp⟩
    · have hpos : 0 < rest.length := List.length_pos_iff.2 h0
      have hd : rest.take n ≠ [] := by
        intro hc
        have := congrArg List.length hc
        simp only [List.length_take, List.length_nil] at this
        omega
      simp only [decodeLoop, Stream.fread, if_neg hd, pieces, if_neg h0, Decoder.feed, Bool.false_or, decide_eq_true_eq, Decoder.call]
      cases hc : d.decodeChunk (rest.take n) with
      | fault f => simp
      | error L o => simp
      | ok L nested o =>
        simp only [Bool.true_eq_false, if_false]
        by_cases he : rest.length < n
        · have hnil : rest.drop n = [] := List.drop_eq_nil_of_le (by omega)
          simp only [he, if_true, hnil, pieces_nil, Decoder.feed, Except.ok.injEq, Prod.mk.injEq, Option.some.injEq]
          constructor
          · rintro ⟨rfl, rfl⟩; exact ⟨o, ⟨by simp, rfl⟩, rfl⟩
          · rintro ⟨out, ⟨rfl, rfl⟩, rfl⟩; exact ⟨rfl, by simp⟩
        · simp only [he, decide_false, if_false]
          rw [ih (by simp only [List.length_drop]; omega)]
          constructor
          · rintro ⟨out, k1, k2⟩
            exact ⟨o ++ out, by rw [k1], by rw [k2, List.append_assoc]⟩
          · rintro ⟨out, k1, k2⟩
            cases hfe : Decoder.feed { top := L, nested := nested } (pieces n fuel (rest.drop n)) with
            | none => rw [hfe] at k1; simp at k1
            | some p =>
              obtain ⟨outs, d2⟩ := p
              rw [hfe] at k1
              simp only [Option.some.injEq, Prod.mk.injEq] at k1
              obtain ⟨k3, k4⟩ := k1
              subst k3; subst k4
              exact ⟨outs, rfl, by rw [k2, List.append_assoc]⟩

theorem compareOutput_iff {t t' : Stream} {out : Bytes} :
    compareOutput t out = some t' ↔
      t.rest = out ++ t'.rest ∧ t'.eof = t.eof := by
  unfold compareOutput
  by_cases h0 : out = []
  · simp only [h0, if_pos, Option.some.injEq, List.nil_append]
    constructor
    · rintro rfl; exact ⟨rfl, rfl⟩
    · rintro ⟨h1, h2⟩; cases t; cases t'; simp_all
  · simp only [if_neg h0]
    have hl : (t.fread out.length).1.length = min out.length t.rest.length := by simp [Stream.fread]
    by_cases h1 : (t.fread out.length).1.length < out.length
    · rw [if_pos h1]
      constructor
      · simp
      · rintro ⟨h2, _⟩
        have := congrArg List.length h2
        simp only [List.length_append] at this
        omega
    · rw [if_neg h1]
      have h3 : ¬ t.rest.length < out.length := by omega
      by_cases h2 : out = (t.fread out.length).1
      · rw [if_pos h2, Option.some.injEq]
        simp only [Stream.fread, h3, decide_false, Bool.or_false] at h2 ⊢
        constructor
        · rintro rfl
          refine ⟨?_, rfl⟩
          simp only
          conv => lhs; rw [← List.take_append_drop out.length t.rest]
          rw [← h2]
        · rintro ⟨h4, h5⟩
          cases t' with
          | mk r b =>
            simp only at h4 h5
            rw [h4, h5]
            simp
      · rw [if_neg h2]
        constructor
        · simp
        · rintro ⟨h3, _⟩
          simp only [Stream.fread] at h2
          rw [h3] at h2
          simp at h2

/-- The loop of `DecodeAndCompare` goes to the end if that of `Decode` does and what it writes is the
beginning of the target. -/
theorem compareLoop_iff {n : Nat} (hn : 0 < n) {fuel : Nat} {rest : Bytes} (hf : rest.length < fuel) {d d' : Decoder}
    {t t' : Stream} :
    compareLoop fuel n ⟨rest, false⟩ d t = .ok (some (d', t')) ↔
      ∃ out, d.feed (pieces n fuel rest) = some (out, d') ∧ t.rest = out ++ t'.rest ∧ t'.eof = t.eof := by
  induction fuel generalizing rest d t with
  | zero => omega
  | succ fuel ih =>
    by_cases h0 : rest = []
    · subst h0
      simp only [compareLoop, Stream.fread, List.take_nil, if_pos, List.length_nil, hn, Bool.false_or, decide_true, pieces, Decoder.feed,
        Except.ok.injEq, Prod.mk.injEq, Option.some.injEq]
      constructor
      · rintro ⟨rfl, rfl⟩; exact ⟨[], ⟨rfl, rfl⟩, by simp, rfl⟩
      · rintro ⟨out, ⟨rfl, rfl⟩, h1, h2⟩; exact ⟨rfl, by cases t; cases t'; simp_all⟩
    · have hpos : 0 < rest.length := List.length_pos_iff.2 h0
      have hd : rest.take n ≠ [] := by
        intro hc
        have := congrArg List.length hc
        simp only [List.length_take, List.length_nil] at this
        omega
      simp only [compareLoop, Stream.fread, if_neg hd, pieces, if_neg h0, Decoder.feed, Bool.false_or, decide_eq_true_eq, Decoder.call]
      cases hc : d.decodeChunk (rest.take n) with
      | fault f => simp
      | error L o => simp
      | ok L nested o =>
        simp only [Bool.true_eq_false, if_false]
        cases hco : compareOutput t o with
        | none =>
          simp only [Except.ok.injEq, reduceCtorEq, false_iff]
          rintro ⟨out, k1, k2, k3⟩
          cases hfe : Decoder.feed { top := L, nested := nested } (pieces n fuel (rest.drop n)) with
          | none => rw [hfe] at k1; simp at k1
          | some p =>
            obtain ⟨outs, d2⟩ := p
            rw [hfe] at k1
            simp only [Option.some.injEq, Prod.mk.injEq] at k1
            obtain ⟨k4, k5⟩ := k1
            subst k4
            have : compareOutput t o = some ⟨outs ++ t'.rest, t.eof⟩ :=
              compareOutput_iff.2 ⟨by rw [k2, List.append_assoc], rfl⟩
            rw [hco] at this
            simp at this
        | some t1 =>
          obtain ⟨c1, c2⟩ := compareOutput_iff.1 hco
          simp only
          by_cases he : rest.length < n
          · have hnil : rest.drop n = [] := List.drop_eq_nil_of_le (by omega)
            simp only [he, if_true, hnil, pieces_nil, Decoder.feed, Except.ok.injEq, Prod.mk.injEq, Option.some.injEq]
            constructor
            · rintro ⟨rfl, rfl⟩; exact ⟨o, ⟨by simp, rfl⟩, c1, c2⟩
            · rintro ⟨out, ⟨rfl, rfl⟩, k2, k3⟩
              refine ⟨rfl, ?_⟩
              rw [c1, List.append_nil] at k2
              have := List.append_cancel_left k2
              cases t1; cases t'; simp_all
          · simp only [he, decide_false, if_false]
            rw [ih (by simp only [List.length_drop]; omega)]
            constructor
            · rintro ⟨out, k1, k2, k3⟩
              exact ⟨o ++ out, by rw [k1], by rw [c1, k2, List.append_assoc], by rw [k3, c2]⟩
            · rintro ⟨out, k1, k2, k3⟩
              cases hfe : Decoder.feed { top := L, nested := nested } (pieces n fuel (rest.drop n)) with
              | none => rw [hfe] at k1; simp at k1
              | some p =>
                obtain ⟨outs, d2⟩ := p
                rw [hfe] at k1
                simp only [Option.some.injEq, Prod.mk.injEq] at k1
                obtain ⟨k4, k5⟩ := k1
                subst k4; subst k5
                rw [c1, List.append_assoc] at k2
                exact ⟨outs, rfl, List.append_cancel_left k2, by rw [k3, c2]⟩

theorem decoder_eq (f : Flags) (dict : Bytes) : decoder f dict = (configured (cliSettings f)).start dict := by
  simp only [decoder, Decoder.setMaxFile, Decoder.setMaxWin, cliSettings, Settings.after, List.foldl_cons,
    List.foldl_nil, Settings.step, configured]
  have e : targetSizeLimit = 2147483647 := rfl
  by_cases h : f.maxTargetWindowSize > targetSizeLimit
  · rw [if_pos h, if_neg (by omega)]; rfl
  · rw [if_neg h, if_pos (by omega)]; rfl

theorem bufferSize_pos {flag : Nat} {i : Input} (hflag : 0 < flag) (h : Readable i) : 0 < bufferSize flag i := by
  cases i with
  | stdin c => exact hflag
  | file c =>
    have : 0 < c.length := List.length_pos_iff.2 h
    simp only [bufferSize]
    split <;> omega

theorem bufferSize_le (flag : Nat) (i : Input) :
    min (bufferSize flag i) i.content.length ≤ min flag i.content.length := by
  cases i with
  | stdin c => exact Nat.le_refl _
  | file c => simp only [bufferSize, Input.content]; split <;> omega

end Vcd.Cli
