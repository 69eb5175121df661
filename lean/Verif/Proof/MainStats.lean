import Verif.Model.MainStats
import Verif.Proof.MainRun

/-! Lemmas about the statistics of the command. -/

namespace Vcd.Cli
open Spec

/-- The variables hold the two numbers, as far as they can. -/
def Counters.Are (c : Counters) (i o : Nat) : Prop := c.input = i % 2 ^ 64 ∧ c.output = o % 2 ^ 64

theorem Counters.Are.read {c : Counters} {i o : Nat} (h : c.Are i o) (n : Nat) : (c.read n).Are (i + n) o := by
  obtain ⟨h1, h2⟩ := h
  refine ⟨?_, h2⟩
  simp only [Counters.read, h1]
  omega

theorem Counters.Are.written {c : Counters} {i o : Nat} (h : c.Are i o) (n : Nat) : (c.written n).Are i (o + n) := by
  obtain ⟨h1, h2⟩ := h
  refine ⟨h1, ?_⟩
  simp only [Counters.written, h2]
  omega

theorem Counters.are_zero : ({} : Counters).Are 0 0 := ⟨rfl, rfl⟩

/-- The turn did not fail. -/
def Turn.going {σ : Type} : Turn σ → Option (Stage σ)
  | .next st => some st
  | .last st => some st
  | .fail _ => none

theorem again_going {σ : Type} (st : Stage σ) : st.again.going = some st := by
  unfold Stage.again; split <;> rfl

theorem turnsCount_are {σ : Type} {turn : Stage σ → Except Fault (Turn σ)} {count : Stage σ → Counters → Counters} (o : Stage σ → Nat)
    (h : ∀ st r st' c, turn st = .ok r → r.going = some st' → c.Are st.input.offset (o st) → (count st c).Are st'.input.offset (o st'))
    {n : Nat} {st st' : Stage σ} {r : Turn σ} {c : Counters} (hr : turns turn n st = .ok r) (hg : r.going = some st')
    (hc : c.Are st.input.offset (o st)) : (turnsCount turn count n st c).Are st'.input.offset (o st') := by
  induction n generalizing st c with
  | zero =>
    simp only [turns, Except.ok.injEq] at hr
    subst hr
    cases hg
    exact hc
  | succ n ih =>
    rw [turns] at hr
    rw [turnsCount]
    cases ht : turn st with
    | error f => simp [ht] at hr
    | ok q =>
      rw [ht] at hr
      cases q with
      | next st1 => exact ih hr (h st _ st1 c ht rfl hc)
      | last st1 => simp only [Except.ok.injEq] at hr; subst hr; exact h st _ st' c ht hg hc
      | fail st1 => simp only [Except.ok.injEq] at hr; subst hr; cases hg

section
variable {t : Trouble}

theorem fread_offset {s : System} {f f' : InFile} {n : Nat} {data : Bytes} (h : f.fread t s n = some (data, f')) :
    f'.offset = f.offset + data.length := by
  unfold InFile.fread at h
  simp only at h
  split at h
  · cases h
  · cases h; rfl

theorem compareFile_offset {s : System} {f f' : InFile} {output : Bytes} (h : compareFile t s f output = some f') :
    f'.offset = f.offset + output.length := by
  unfold compareFile at h
  split at h
  · rename_i h0; cases h; rw [h0]; rfl
  · split at h
    · cases h
    · rename_i hf
      have := fread_offset hf
      split at h
      · cases h
      · split at h
        · rename_i he
          cases h
          rw [this, he]
        · cases h

theorem writeOutput_given {s s' : System} {f f' : OutFile} {output : Bytes} {ok : Bool} (h : writeOutput t s f output = (s', f', ok)) :
    f'.given = f.given ++ output := by
  unfold writeOutput at h
  split at h
  · rename_i h0; cases h; rw [h0, List.append_nil]
  · cases h; rfl

theorem encodeTurnCount_are {size : Nat} (st : Stage Encoder) (r : Turn Encoder) (st' : Stage Encoder) (c : Counters)
    (hr : encodeTurn t size st = .ok r) (hg : r.going = some st') (hc : c.Are st.input.offset st.out.given.length) :
    (encodeTurnCount t size st c).Are st'.input.offset st'.out.given.length := by
  unfold encodeTurn at hr
  unfold encodeTurnCount
  cases hw : writeOutput t st.sys st.out st.pending with
  | mk sys p =>
    obtain ⟨out, ok⟩ := p
    rw [hw] at hr
    dsimp only at hr ⊢
    have hgiven := writeOutput_given hw
    cases ok with
    | false => simp only [if_true, Except.ok.injEq] at hr; subst hr; cases hg
    | true =>
      simp only [Bool.true_eq_false, if_false] at hr ⊢
      cases hf : st.input.fread t sys size with
      | none => simp only [hf, Except.ok.injEq] at hr; subst hr; cases hg
      | some q =>
        obtain ⟨data, input⟩ := q
        have hoff := fread_offset hf
        simp only [hf] at hr ⊢
        by_cases h0 : data = []
        · simp only [h0, if_true, Except.ok.injEq] at hr ⊢
          subst hr
          rw [again_going] at hg
          cases hg
          simp only [hoff, hgiven, List.length_append, h0, List.length_nil, Nat.add_zero]
          exact hc.written _
        · simp only [h0, if_false] at hr ⊢
          have key : (c.written st.pending.length |>.read data.length).Are input.offset out.given.length := by
            rw [hoff, hgiven, List.length_append]
            exact (hc.written _).read _
          split at hr
          · cases hr
          · split at hr
            · cases hr; cases hg
            · cases hr
              rw [again_going] at hg
              cases hg
              exact key

theorem decodeTurnCount_are {size : Nat} (st : Stage Decoder) (r : Turn Decoder) (st' : Stage Decoder) (c : Counters)
    (hr : decodeTurn t size st = .ok r) (hg : r.going = some st') (hc : c.Are st.input.offset st.out.given.length) :
    (decodeTurnCount t size st c).Are st'.input.offset st'.out.given.length := by
  unfold decodeTurn at hr
  unfold decodeTurnCount
  cases hf : st.input.fread t st.sys size with
  | none => simp only [hf, Except.ok.injEq] at hr; subst hr; cases hg
  | some q =>
    obtain ⟨data, input⟩ := q
    have hoff := fread_offset hf
    simp only [hf] at hr ⊢
    by_cases h0 : data = []
    · simp only [h0, if_true, Except.ok.injEq] at hr ⊢
      subst hr
      rw [again_going] at hg
      cases hg
      simp only [hoff, h0, List.length_nil, Nat.add_zero]
      exact hc.written 0
    · simp only [h0, if_false] at hr ⊢
      cases hcall : st.coder.call (.chunk data) with
      | error f => simp [hcall] at hr
      | ok q =>
        obtain ⟨rep, coder⟩ := q
        simp only [hcall] at hr ⊢
        cases hret : rep.ret with
        | false => simp only [hret, if_true, Except.ok.injEq] at hr; subst hr; cases hg
        | true =>
          simp only [hret, Bool.true_eq_false, if_false] at hr ⊢
          cases hw : writeOutput t st.sys st.out rep.out with
          | mk sys p =>
            obtain ⟨out, ok⟩ := p
            have hgiven := writeOutput_given hw
            rw [hw] at hr
            dsimp only at hr ⊢
            cases ok with
            | false => simp only [if_true, Except.ok.injEq] at hr; subst hr; cases hg
            | true =>
              simp only [Bool.true_eq_false, if_false, Except.ok.injEq] at hr ⊢
              subst hr
              rw [again_going] at hg
              cases hg
              simp only [hoff, hgiven, List.length_append]
              exact (hc.read _).written _

theorem compareTurnCount_are {size : Nat} (st : Stage (Decoder × InFile)) (r : Turn (Decoder × InFile)) (st' : Stage (Decoder × InFile)) (c : Counters)
    (hr : compareTurn t size st = .ok r) (hg : r.going = some st') (hc : c.Are st.input.offset st.coder.2.offset) :
    (compareTurnCount t size st c).Are st'.input.offset st'.coder.2.offset := by
  unfold compareTurn at hr
  unfold compareTurnCount
  cases hf : st.input.fread t st.sys size with
  | none => simp only [hf, Except.ok.injEq] at hr; subst hr; cases hg
  | some q =>
    obtain ⟨data, input⟩ := q
    have hoff := fread_offset hf
    simp only [hf] at hr ⊢
    by_cases h0 : data = []
    · simp only [h0, if_true, Except.ok.injEq] at hr ⊢
      subst hr
      rw [again_going] at hg
      cases hg
      simp only [hoff, h0, List.length_nil, Nat.add_zero]
      exact hc.written 0
    · simp only [h0, if_false] at hr ⊢
      cases hcall : st.coder.1.call (.chunk data) with
      | error f => simp [hcall] at hr
      | ok q =>
        obtain ⟨rep, coder⟩ := q
        simp only [hcall] at hr ⊢
        cases hret : rep.ret with
        | false => simp only [hret, if_true, Except.ok.injEq] at hr; subst hr; cases hg
        | true =>
          simp only [hret, Bool.true_eq_false, if_false] at hr ⊢
          cases hw : compareFile t st.sys st.coder.2 rep.out with
          | none => simp only [hw, Except.ok.injEq] at hr; subst hr; cases hg
          | some target =>
            have htgt := compareFile_offset hw
            simp only [hw, Except.ok.injEq] at hr ⊢
            subst hr
            rw [again_going] at hg
            cases hg
            simp only [hoff, htgt]
            exact (hc.read _).written _

/-- The line of statistics for an original and a compressed file of these sizes (modulo 2^64), where nothing is said if `guard` is 0. -/
def line (guard original compressed : Nat) : List Statistics :=
  if 0 < guard % 2 ^ 64 then [{ original := original % 2 ^ 64, compressed := compressed % 2 ^ 64 }] else []

/-- What the statistics of `Encode` say. -/
theorem runEncodeStats_meaning {n : Nat} {a : Args} {s : System} {r : Run} (hs : s.stdout = []) (hin : a.target = "" ∨ a.target ≠ a.delta)
    (h : runEncode n t a s = .ok r) :
    (r.status ≠ some 0 → runEncodeStats n t a s = []) ∧
    (r.status = some 0 → ∃ out : OutFile, out.name = a.delta ∧ out.passed = out.given.length ∧ Fits t out ∧
      r.sys = s.put a.delta (out.disk t) ∧ runEncodeStats n t a s = line (s.input a.target).length (s.input a.target).length out.given.length) := by
  unfold runEncode at h
  unfold runEncodeStats
  cases ho : openFiles t s a.flags.buffersize a.dictionary a.target a.delta with
  | none => rw [ho] at h; cases h; simp
  | some q =>
    obtain ⟨dict, input, size, sys, out0⟩ := q
    obtain ⟨_, h2, _, h4, h5⟩ := openFiles_some hs ho
    subst h2; subst h4; subst h5
    simp only [ho] at h ⊢
    cases hi : Engine.init dict with
    | error f => simp [hi] at h
    | ok e? =>
      cases e? with
      | none => simp only [hi, Except.ok.injEq] at h; subst h; simp
      | some engine =>
        simp only [hi] at h ⊢
        cases hst : (Encoder.new engine a.flags.format a.flags.targetMatches).call .start with
        | error f => simp [hst] at h
        | ok q =>
          obtain ⟨rep, coder⟩ := q
          simp only [hst] at h ⊢
          cases hret : rep.ret with
          | false => simp only [hret, if_true, Except.ok.injEq] at h ⊢; subst h; simp
          | true =>
            simp only [hret, Bool.true_eq_false, if_false] at h ⊢
            cases ht : turns (encodeTurn t size) n
                (Stage.mk (s.put a.delta []) { name := a.target } coder rep.out { name := a.delta }) with
            | error f => simp [ht] at h
            | ok turn =>
              simp only [ht] at h ⊢
              have hput : ∀ x, (s.put a.delta x).input a.target = s.input a.target := fun x => System.put_input hin x
              have h0 : EncAt t s a.target a.delta (s.input a.target) coder rep.out size
                  (Stage.mk (s.put a.delta []) { name := a.target } coder rep.out { name := a.delta }) [] :=
                ⟨congrArg (s.put a.delta) disk_nil.symm, rfl, rfl, rfl, Nat.zero_le _, by simp, by simp, ⟨by simp, by simp⟩, by simp,
                  [], rfl, by simp, by simp⟩
              have hinv := turns_inv (P := fun st => ∃ cs, EncAt t s a.target a.delta (s.input a.target) coder rep.out size st cs)
                (Q := EncFail t s a.delta (s.input a.target) coder rep.out size)
                (fun st r hp hr => by
                  obtain ⟨cs, hp⟩ := hp
                  have := hp.turn hput hr
                  cases r with
                  | next st => exact this.1
                  | last st => exact this
                  | fail st => exact this) ⟨[], h0⟩ ht
              have hfits := turns_inv (fun st r hp hr => encodeTurn_fits hp hr) fits_nil ht
              cases turn with
              | next st => simp only [endEncode, Except.ok.injEq] at h; subst h; exact ⟨fun _ => rfl, by simp⟩
              | fail st => simp only [endEncode, Except.ok.injEq] at h; subst h; exact ⟨fun _ => rfl, by simp⟩
              | last st =>
                obtain ⟨⟨cs, k⟩, k'⟩ := hinv
                have hcnt := turnsCount_are (fun st => st.out.given.length) encodeTurnCount_are ht rfl Counters.are_zero
                simp only [endEncode, endEncodeStats] at h ⊢
                cases hf : st.coder.call .finish with
                | error f => simp [hf] at h
                | ok q =>
                  obtain ⟨rf, ef⟩ := q
                  simp only [hf] at h ⊢
                  cases hw : writeOutput t st.sys st.out (st.pending ++ rf.out) with
                  | mk sys p =>
                    obtain ⟨out, ok⟩ := p
                    simp only [hw, Except.ok.injEq] at h ⊢
                    subst h
                    cases ok with
                    | false => simp
                    | true =>
                      obtain ⟨w1, w2, w3, _⟩ := writeOutput_spec k.sys hw
                      rw [k.oname] at w2
                      simp only [if_true, ne_eq, not_true_eq_false, false_implies, true_and, forall_const, Bool.true_eq_false, if_false]
                      refine ⟨OutFile.mk a.delta out.given out.given.length, rfl, rfl,
                        by have := writeOutput_fits hfits.1 hw; rw [← w2]; exact this, closeOutput_at w2 (by rw [w1, w2]), ?_⟩
                      have := hcnt.written (st.pending ++ rf.out).length
                      rw [k.eof k', ← List.length_append, ← w3] at this
                      simp only [line, this.1, this.2]

/-- What the statistics of `Decode` say. -/
theorem runDecodeStats_meaning {n : Nat} {a : Args} {s : System} {r : Run} (hs : s.stdout = []) (hin : a.delta = "" ∨ a.delta ≠ a.target)
    (h : runDecode n t a s = .ok r) :
    (r.status ≠ some 0 → runDecodeStats n t a s = []) ∧
    (r.status = some 0 → ∃ out : OutFile, out.name = a.target ∧ out.passed = out.given.length ∧ Fits t out ∧
      r.sys = s.put a.target (out.disk t) ∧ runDecodeStats n t a s = line out.given.length out.given.length (s.input a.delta).length) := by
  unfold runDecode at h
  unfold runDecodeStats
  cases ho : openFiles t s a.flags.buffersize a.dictionary a.delta a.target with
  | none => rw [ho] at h; cases h; simp
  | some q =>
    obtain ⟨dict, input, size, sys, out0⟩ := q
    obtain ⟨_, h2, _, h4, h5⟩ := openFiles_some hs ho
    subst h2; subst h4; subst h5
    simp only [ho] at h ⊢
    cases ht : turns (decodeTurn t size) n
        (Stage.mk (s.put a.target []) { name := a.delta } (decoder a.flags dict) [] { name := a.target }) with
    | error f => simp [ht] at h
    | ok turn =>
      simp only [ht, Except.ok.injEq] at h ⊢
      subst h
      have hput : ∀ x, (s.put a.target x).input a.delta = s.input a.delta := fun x => System.put_input hin x
      have h0 : DecAt t s a.delta a.target (s.input a.delta) (decoder a.flags dict)
          (Stage.mk (s.put a.target []) { name := a.delta } (decoder a.flags dict) [] { name := a.target }) [] :=
        ⟨congrArg (s.put a.target) disk_nil.symm, rfl, rfl, rfl, Nat.zero_le _, rfl, by simp⟩
      have hinv := turns_inv (P := fun st => ∃ cs, DecAt t s a.delta a.target (s.input a.delta) (decoder a.flags dict) st cs)
        (Q := DecFail t s a.target (s.input a.delta) (decoder a.flags dict))
        (fun st r hp hr => by
          obtain ⟨cs, hp⟩ := hp
          have := hp.turn hput hr
          cases r with
          | next st => exact this.1
          | last st => exact this
          | fail st => exact this) ⟨[], h0⟩ ht
      have hfits := turns_inv (fun st r hp hr => decodeTurn_fits hp hr) fits_nil ht
      cases turn with
      | next st => simp [endDecode, endDecodeStats]
      | fail st => simp [endDecode, endDecodeStats]
      | last st =>
        obtain ⟨⟨cs, k⟩, k'⟩ := hinv
        have hcnt := turnsCount_are (fun st => st.out.given.length) decodeTurnCount_are ht rfl Counters.are_zero
        simp only [endDecode, endDecodeStats]
        cases hfin : st.coder.finish.1 with
        | false => simp
        | true =>
          simp only [if_true, ne_eq, not_true_eq_false, false_implies, true_and, forall_const, Bool.true_eq_false, if_false]
          refine ⟨OutFile.mk a.target st.out.given st.out.given.length, rfl, rfl, by rw [← k.oname]; exact hfits.1,
            closeOutput_at k.oname (by rw [← k.oname]; exact k.sys), ?_⟩
          have := hcnt.written 0
          rw [k.eof k', Nat.add_zero] at this
          simp only [line, this.1, this.2]

/-- What the statistics of `DecodeAndCompare` say. -/
theorem runCompareStats_meaning {n : Nat} {a : Args} {s : System} {r : Run} (h : runCompare n t a s = .ok r) :
    (r.status ≠ some 0 → runCompareStats n t a s = []) ∧
    (r.status = some 0 → runCompareStats n t a s = line (s.input a.target).length (s.input a.target).length (s.input a.delta).length) := by
  unfold runCompare at h
  unfold runCompareStats
  cases hdict : openDictionary t s a.dictionary with
  | none => rw [hdict] at h; cases h; simp
  | some dict =>
    simp only [hdict] at h ⊢
    cases hi : openForReading t s a.flags.buffersize a.delta with
    | none => rw [hi] at h; cases h; simp
    | some q =>
      obtain ⟨input, size⟩ := q
      simp only [hi] at h ⊢
      cases htg : openForReading t s a.flags.buffersize a.target with
      | none => rw [htg] at h; cases h; simp
      | some q =>
        obtain ⟨target, size2⟩ := q
        obtain ⟨i1, _⟩ := openForReading_some hi
        obtain ⟨t1, _⟩ := openForReading_some htg
        subst i1; subst t1
        simp only [htg] at h ⊢
        cases ht : turns (compareTurn t size) n (Stage.mk s { name := a.delta } (decoder a.flags dict, { name := a.target }) [] { name := "" }) with
        | error f => simp [ht] at h
        | ok turn =>
          simp only [ht, Except.ok.injEq] at h ⊢
          subst h
          have hA : CmpAt s a.delta a.target (decoder a.flags dict) (Stage.mk s { name := a.delta }
              (decoder a.flags dict, { name := a.target }) [] { name := "" }) [] :=
            ⟨rfl, rfl, rfl, Nat.zero_le _, by simp, rfl, Nat.zero_le _, rfl⟩
          have hinv := turns_inv (P := fun st => ∃ cs, CmpAt s a.delta a.target (decoder a.flags dict) st cs) (Q := fun _ => True)
            (fun st r hp hr => by
              obtain ⟨cs, hp⟩ := hp
              have := hp.turn hr
              cases r with
              | next st => exact this.1
              | last st => exact this
              | fail st => trivial) ⟨[], hA⟩ ht
          cases turn with
          | next st => simp [endCompare, endCompareStats]
          | fail st => simp [endCompare, endCompareStats]
          | last st =>
            obtain ⟨⟨cs, k⟩, k'⟩ := hinv
            have hcnt := turnsCount_are (fun st => st.coder.2.offset) compareTurnCount_are ht rfl Counters.are_zero
            simp only [endCompare, endCompareStats]
            cases hfin : st.coder.1.finish.1 with
            | false => simp
            | true =>
              simp only [Bool.true_eq_false, if_false]
              cases hfr : st.coder.2.fread t s 1 with
              | none => simp
              | some q =>
                obtain ⟨data, f'⟩ := q
                simp only
                by_cases hdata : data = []
                · simp only [hdata, if_true, ne_eq, not_true_eq_false, false_implies, true_and, forall_const]
                  obtain ⟨f1, _⟩ := fread_spec hfr (by rw [k.tname]; exact k.toff)
                  rw [hdata, k.tname] at f1
                  have hend : st.coder.2.offset = (s.input a.target).length := by
                    have := congrArg List.length f1
                    simp only [List.length_nil, List.length_take, List.length_drop] at this
                    have := k.toff
                    omega
                  have := hcnt.written 0
                  rw [k.eof k', Nat.add_zero, hend] at this
                  simp only [line, this.1, this.2]
                · simp [hdata]

end
end Vcd.Cli
