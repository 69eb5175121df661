import Verif.Spec.OutputClass
import Verif.Proof.OutputEncoder
import Verif.Proof.OutputCount

/-!
# Output classes: lemmas
-/

namespace Vcd
open Vcd.Spec

variable {σ : Type} {C : OutClass σ} {text : σ → Bytes}

theorem ofNat_growth (a n : Nat) : UInt64.ofNat (a + n) - UInt64.ofNat a = UInt64.ofNat n := by
  rw [UInt64.ofNat_add, UInt64.add_comm, UInt64.add_sub_cancel]

/-- What `Output` does to an object, and when it complains. -/
theorem Writer.outputTo_spec (hx : Extends C text) {w w' : Writer} {out : Bytes} (h : w.output = .ok (out, w')) (o : σ) :
    ∃ o' n, w.outputTo C o = .ok (o', n, w') ∧ text o' = text o ++ out ∧ (Sized C text → n = 0) ∧
      ((∀ o1 o2, C.size o1 = C.size o2) → out.length < 2 ^ 64 → n = if out = [] then 0 else 1) := by
  unfold Writer.output at h
  by_cases hi : w.inst = []
  · refine ⟨o, 0, ?_, ?_, fun _ => rfl, ?_⟩
    · simp only [Writer.outputTo, if_pos hi, bind, Except.bind] at h ⊢
      split at h <;> simp at h
      rename_i hq
      rw [hq, h.2]
    · simp only [if_pos hi] at h
      split at h <;> simp at h
      rw [h.1]; simp
    · intro _ _
      simp only [if_pos hi] at h
      split at h <;> simp at h
      rw [h.1]; simp
  · simp only [if_neg hi] at h
    cases hb : w.windowBytes with
    | error f => simp [hb] at h
    | ok bs =>
      have hout : bs = out := by
        simp only [hb] at h
        split at h <;> simp at h
        exact h.1
      subst hout
      simp only [hb] at h
      simp only [Writer.windowBytes, Writer.deltaBytes, bind, Except.bind] at hb
      simp only [Writer.outputTo, if_neg hi, bind, Except.bind]
      cases h1 : Writer.sizeBytes w.dictionarySize with
      | error f => simp [h1] at hb
      | ok b1 =>
      cases h2 : Writer.sizeBytes 0 with
      | error f => simp [h1, h2] at hb
      | ok b2 =>
      cases h3 : Writer.sizeBytes w.deltaLength with
      | error f => simp [h1, h2, h3] at hb
      | ok b3 =>
      cases h4 : Writer.sizeBytes w.targetLength with
      | error f => simp [h1, h2, h3, h4] at hb
      | ok b4 =>
      cases h5 : Writer.sizeBytes w.data.length with
      | error f => simp [h1, h2, h3, h4, h5] at hb
      | ok b5 =>
      cases h6 : Writer.sizeBytes w.inst.length with
      | error f => simp [h1, h2, h3, h4, h5, h6] at hb
      | ok b6 =>
      cases h7 : Writer.sizeBytes w.addr.length with
      | error f => simp [h1, h2, h3, h4, h5, h6, h7] at hb
      | ok b7 =>
      cases h8 : Writer.checksumBytes w.checksum with
      | error f => simp [h1, h2, h3, h4, h5, h6, h7, h8] at hb
      | ok b8 =>
      simp only [h1, h2, h3, h4, h5, h6, h7, h8] at hb ⊢
      split at hb
      · cases hb
      · rename_i hl
        simp only [Except.ok.injEq] at hb
        have hl := Classical.not_not.1 hl
        have hc : ∀ o1 : σ, text (if w.checksum.isSome then C.append o1 b8 else o1) = text o1 ++ b8 := by
          intro o1
          cases hs : w.checksum with
          | some c => simp [hx.append]
          | none => rw [hs] at h8; simp [Writer.checksumBytes] at h8; simp [h8]
        split at h
        · cases h
        · cases h
        rename_i hq
        simp only [Except.ok.injEq, Prod.mk.injEq, true_and] at h
        subst h
        rw [hq]
        refine ⟨_, _, rfl, ?_, ?_, ?_⟩
        · rw [← hb]
          simp only [hx.append, hx.pushBack, hx.reserve, hc, List.append_assoc, List.cons_append, List.nil_append]
        · intro hz
          rw [if_neg]
          rw [Classical.not_not, hz, hz]
          simp only [hx.append, hx.pushBack, hx.reserve, hc, hl]
          generalize text o ++ _ ++ b1 ++ b2 ++ b3 = T
          have : ∀ D E : Bytes, D = T ++ E → UInt64.ofNat E.length = UInt64.ofNat D.length - UInt64.ofNat T.length := by
            rintro D E rfl
            rw [List.length_append, ofNat_growth]
          exact this _ _ (by simp)
        · intro hz hlen
          have hne : bs ≠ [] := by rw [← hb]; simp
          rw [if_neg hne, if_pos]
          rw [hz _ o, hz (C.append _ b3) o, UInt64.sub_self]
          intro h0
          have hle : w.deltaLength ≤ bs.length := by rw [← hb, hl]; simp only [List.length_append]; omega
          have hpos : 0 < w.deltaLength := by rw [hl]; simp only [List.length_append, List.length_cons]; omega
          have := congrArg UInt64.toNat h0
          rw [UInt64.toNat_ofNat', Nat.mod_eq_of_lt (by omega)] at this
          simp at this
          omega

theorem callsTo_spec (hx : Extends C text) {cs : List CoderCall} :
    ∀ {w w' : Writer} {out : Bytes}, w.calls cs = .ok (out, w') → ∀ o,
    ∃ o' n, w.callsTo C o cs = .ok (o', n, w') ∧ text o' = text o ++ out ∧ (Sized C text → n = 0) := by
  induction cs with
  | nil => intro w w' out h o; cases h; exact ⟨o, 0, rfl, by simp, fun _ => rfl⟩
  | cons c cs ih =>
    intro w w' out h o
    rw [Writer.calls] at h
    cases h1 : w.call c with
    | error f => simp [h1] at h
    | ok p =>
      obtain ⟨o1, w1⟩ := p
      simp only [h1] at h
      cases h2 : w1.calls cs with
      | error f => simp [h2, Except.map] at h
      | ok q =>
        obtain ⟨o2, w2⟩ := q
        simp only [h2, Except.map, Except.ok.injEq, Prod.mk.injEq] at h
        obtain ⟨rfl, rfl⟩ := h
        have quiet : ∀ x : Except Fault Writer, (x.map fun w => (([] : Bytes), w)) = .ok (o1, w1) → o1 = [] := by
          intro x hx
          cases x with
          | error f => simp [Except.map] at hx
          | ok v => simp [Except.map] at hx; exact hx.1
        cases c with
        | output =>
          obtain ⟨a, n, k1, k2, k3, _⟩ := Writer.outputTo_spec hx h1 o
          obtain ⟨b, m, k4, k5, k6⟩ := ih h2 a
          refine ⟨b, n + m, ?_, by rw [k5, k2, List.append_assoc], fun hz => by rw [k3 hz, k6 hz]⟩
          simp [Writer.callsTo, k1, k4, bind, Except.bind]
        | add _ | copy _ _ | run _ _ =>
          obtain rfl := quiet _ h1
          obtain ⟨b, m, k4, k5, k6⟩ := ih h2 o
          refine ⟨b, m, ?_, by simpa using k5, k6⟩
          simp [Writer.callsTo, h1, k4, bind, Except.bind]

/-- With `Output` last, an object whose size does not change is complained about once, if there is output. -/
theorem callsTo_unsized (hx : Extends C text) (hz : ∀ o1 o2, C.size o1 = C.size o2) {cs : List CoderCall} (hq : CoderCall.output ∉ cs) :
    ∀ {w w' : Writer} {out : Bytes}, w.calls (cs ++ [.output]) = .ok (out, w') → out.length < 2 ^ 64 → ∀ o,
    ∃ o', w.callsTo C o (cs ++ [.output]) = .ok (o', if out = [] then 0 else 1, w') := by
  induction cs with
  | nil =>
    intro w w' out h hl o
    simp only [List.nil_append, Writer.calls, Writer.call] at h
    cases h1 : w.output with
    | error f => simp [h1] at h
    | ok p =>
      obtain ⟨o1, w1⟩ := p
      simp only [h1, Except.map, Except.ok.injEq, Prod.mk.injEq, List.append_nil] at h
      obtain ⟨rfl, rfl⟩ := h
      obtain ⟨a, n, k1, k2, k3, k4⟩ := Writer.outputTo_spec hx h1 o
      refine ⟨a, ?_⟩
      simp [Writer.callsTo, k1, bind, Except.bind, k4 hz hl]
  | cons c cs ih =>
    intro w w' out h hl o
    rw [List.cons_append, Writer.calls] at h
    cases h1 : w.call c with
    | error f => simp [h1] at h
    | ok p =>
      obtain ⟨o1, w1⟩ := p
      simp only [h1] at h
      cases h2 : w1.calls (cs ++ [.output]) with
      | error f => simp [h2, Except.map] at h
      | ok q =>
        obtain ⟨o2, w2⟩ := q
        simp only [h2, Except.map, Except.ok.injEq, Prod.mk.injEq] at h
        obtain ⟨rfl, rfl⟩ := h
        have quiet : ∀ x : Except Fault Writer, (x.map fun w => (([] : Bytes), w)) = .ok (o1, w1) → o1 = [] := by
          intro x hx
          cases x with
          | error f => simp [Except.map] at hx
          | ok v => simp [Except.map] at hx; exact hx.1
        cases c with
        | output => simp at hq
        | add _ | copy _ _ | run _ _ =>
          obtain rfl := quiet _ h1
          obtain ⟨b, k4⟩ := ih (fun hm => hq (by simp [hm])) h2 (by simpa using hl) o
          refine ⟨b, ?_⟩
          simp [Writer.callsTo, h1, k4, bind, Except.bind]

theorem JsonWriter.callsTo_spec (hx : Extends C text) {cs : List CoderCall} : ∀ (w : JsonWriter) (o : σ),
    (w.callsTo C o cs).2 = (w.calls cs).2 ∧ text (w.callsTo C o cs).1 = text o ++ (w.calls cs).1 := by
  induction cs with
  | nil => intro w o; simp [JsonWriter.callsTo, JsonWriter.calls]
  | cons c cs ih =>
    intro w o
    cases c with
    | output =>
      have := ih w.flush.2 (C.append o w.output)
      simp only [JsonWriter.callsTo, JsonWriter.calls, JsonWriter.call, this, hx.append, true_and, List.append_assoc]
      rfl
    | add _ | copy _ _ | run _ _ =>
      simp only [JsonWriter.callsTo, JsonWriter.calls, ih, JsonWriter.call, List.nil_append, and_self]

namespace Encoder

theorem callTo_spec (hx : Extends C text) {e e' : Encoder} {c : EncoderCall} {r : EncoderReply} (h : e.call c = .ok (r, e')) (o : σ) :
    ∃ o' n, e.callTo C o c = .ok (r.ret, o', n, e') ∧ text o' = text o ++ r.out ∧ (Sized C text → n = 0) := by
  cases c with
  | start =>
    simp only [Encoder.call, Encoder.start] at h
    simp only [Encoder.callTo, Encoder.startTo]
    cases hc : e.coder with
    | binary w =>
      simp only [hc] at h ⊢
      cases hi : w.init e.engine.dictionary.length with
      | error f => simp [hi, Except.map] at h
      | ok p =>
        obtain ⟨b, w1⟩ := p
        cases b <;> simp only [hi, Except.map, Except.ok.injEq, Prod.mk.injEq] at h ⊢
        all_goals
          obtain ⟨rfl, rfl⟩ := h
          exact ⟨_, _, ⟨rfl, rfl, rfl, rfl⟩, by simp [hx.append], fun _ => rfl⟩
    | json w =>
      simp only [hc] at h ⊢
      cases ha : JsonWriter.isAscii e.engine.dictionary <;>
        simp only [ha, Bool.false_eq_true, if_true, if_false, Except.map, Except.ok.injEq, Prod.mk.injEq] at h ⊢
      all_goals
        obtain ⟨rfl, rfl⟩ := h
        exact ⟨_, _, ⟨rfl, rfl, rfl, rfl⟩, by simp, fun _ => rfl⟩
  | chunk data =>
    simp only [Encoder.call, Encoder.chunk] at h
    simp only [Encoder.callTo, Encoder.chunkTo]
    cases ha : e.allowed with
    | false =>
      simp only [ha, Bool.not_false, if_true, Except.map, Except.ok.injEq, Prod.mk.injEq] at h ⊢
      obtain ⟨rfl, rfl⟩ := h
      exact ⟨_, _, ⟨rfl, rfl, rfl, rfl⟩, by simp, fun _ => rfl⟩
    | true =>
      simp only [ha, Bool.not_true, Bool.false_eq_true, if_false] at h ⊢
      cases hc : e.coder with
      | binary w =>
        simp only [hc] at h ⊢
        generalize (if e.flags &&& 2 ≠ 0 then w.addChecksum (computeAdler32 data) else w) = w0 at h ⊢
        cases h1 : e.engine.encode e.lookForTargetMatches data with
        | error f => simp [h1, Except.map] at h
        | ok cs =>
          simp only [h1] at h ⊢
          cases h2 : w0.calls cs with
          | error f => simp [h2, Except.map] at h
          | ok p =>
            obtain ⟨o1, w1⟩ := p
            simp only [h2, Except.map, Except.ok.injEq, Prod.mk.injEq] at h
            obtain ⟨rfl, rfl⟩ := h
            obtain ⟨o', n, k1, k2, k3⟩ := callsTo_spec hx h2 o
            exact ⟨o', n, by simp [k1, Except.map], k2, k3⟩
      | json w =>
        simp only [hc] at h ⊢
        cases hs : JsonWriter.isAscii data with
        | false =>
          simp only [hs, Bool.not_false, if_true, Except.map, Except.ok.injEq, Prod.mk.injEq] at h ⊢
          obtain ⟨rfl, rfl⟩ := h
          exact ⟨_, _, ⟨rfl, rfl, rfl, rfl⟩, by simp, fun _ => rfl⟩
        | true =>
          simp only [hs, Bool.not_true, Bool.false_eq_true, if_false] at h ⊢
          cases h1 : e.engine.encode e.lookForTargetMatches data with
          | error f => simp [h1, Except.map] at h
          | ok cs =>
            simp only [h1, Except.map, Except.ok.injEq, Prod.mk.injEq] at h ⊢
            obtain ⟨rfl, rfl⟩ := h
            obtain ⟨k1, k2⟩ := JsonWriter.callsTo_spec hx (cs := cs) w o
            exact ⟨_, _, ⟨rfl, rfl, rfl, by rw [k1]⟩, k2, fun _ => rfl⟩
  | finish =>
    simp only [Encoder.call, Encoder.finish, Except.ok.injEq, Prod.mk.injEq] at h
    simp only [Encoder.callTo, Encoder.finishTo]
    obtain ⟨rfl, rfl⟩ := h
    cases ha : e.allowed with
    | false => exact ⟨o, 0, by simp, by simp, fun _ => rfl⟩
    | true =>
      cases hc : e.coder with
      | binary w => exact ⟨o, 0, by simp, by simp, fun _ => rfl⟩
      | json w =>
        refine ⟨_, 0, by simp; rfl, ?_, fun _ => rfl⟩
        cases hw : w.outputCalled <;> simp [JsonWriter.finish, hw, hx.append]

theorem callsTo_spec (hx : Extends C text) {cs : List EncoderCall} :
    ∀ {e e' : Encoder} {rs : List EncoderReply}, e.calls cs = .ok (rs, e') → ∀ o,
    ∃ o' n, e.callsTo C o cs = .ok (rs.map (·.ret), o', n, e') ∧ text o' = text o ++ rs.flatMap (·.out) ∧ (Sized C text → n = 0) := by
  induction cs with
  | nil => intro e e' rs h o; cases h; exact ⟨o, 0, rfl, by simp, fun _ => rfl⟩
  | cons c cs ih =>
    intro e e' rs h o
    rw [Encoder.calls] at h
    cases h1 : e.call c with
    | error f => simp [h1] at h
    | ok p =>
      obtain ⟨r, e1⟩ := p
      simp only [h1] at h
      cases h2 : e1.calls cs with
      | error f => simp [h2] at h
      | ok q =>
        obtain ⟨rs2, e2⟩ := q
        simp only [h2, Except.ok.injEq, Prod.mk.injEq] at h
        obtain ⟨rfl, rfl⟩ := h
        obtain ⟨a, n, k1, k2, k3⟩ := callTo_spec hx h1 o
        obtain ⟨b, m, k4, k5, k6⟩ := ih h2 a
        refine ⟨b, n + m, ?_, by rw [k5, k2]; simp, fun hz => by rw [k3 hz, k6 hz]⟩
        simp [Encoder.callsTo, k1, k4, bind, Except.bind]

end Encoder

theorem SimpleEncoder.encodeTo_spec (hx : Extends C text) {s s' : SimpleEncoder} {target out : Bytes} {ret : Bool}
    (h : s.encode target = .ok (ret, out, s')) (o : σ) :
    ∃ o' n, s.encodeTo C target o = .ok (ret, o', n, s') ∧ text o' = text (C.clear o) ++ out ∧ (Sized C text → n = 0) := by
  simp only [SimpleEncoder.encode] at h
  simp only [SimpleEncoder.encodeTo]
  cases h0 : s.streaming with
  | error f => simp [h0] at h
  | ok e =>
    cases e with
    | none =>
      simp only [h0, Except.ok.injEq, Prod.mk.injEq] at h ⊢
      obtain ⟨rfl, rfl, rfl⟩ := h
      exact ⟨_, _, ⟨rfl, rfl, rfl, rfl⟩, by simp, fun _ => rfl⟩
    | some e =>
      simp only [h0] at h ⊢
      cases h1 : e.call .start with
      | error f => simp [h1] at h
      | ok p =>
        obtain ⟨r1, e1⟩ := p
        simp only [h1] at h
        obtain ⟨a, n, k1, k2, k3⟩ := Encoder.callTo_spec hx h1 (C.clear o)
        simp only [k1, bind, Except.bind]
        split at h
        · rename_i hr
          simp only [Except.ok.injEq, Prod.mk.injEq] at h
          obtain ⟨rfl, rfl, rfl⟩ := h
          exact ⟨a, n, by simp [hr], k2, k3⟩
        · rename_i hr
          rw [if_neg hr]
          cases h2 : e1.call (.chunk target) with
          | error f => simp [h2] at h
          | ok p =>
            obtain ⟨r2, e2⟩ := p
            simp only [h2] at h
            obtain ⟨b, m, k4, k5, k6⟩ := Encoder.callTo_spec hx h2 a
            simp only [k4]
            split at h
            · rename_i hr2
              simp only [Except.ok.injEq, Prod.mk.injEq] at h
              obtain ⟨rfl, rfl, rfl⟩ := h
              exact ⟨b, n + m, by simp [hr2], by rw [k5, k2, List.append_assoc], fun hz => by rw [k3 hz, k6 hz]⟩
            · rename_i hr2
              rw [if_neg hr2]
              cases h3 : e2.call .finish with
              | error f => simp [h3] at h
              | ok p =>
                obtain ⟨r3, e3⟩ := p
                simp only [h3, Except.ok.injEq, Prod.mk.injEq] at h
                obtain ⟨rfl, rfl, rfl⟩ := h
                obtain ⟨c, l, k7, k8, k9⟩ := Encoder.callTo_spec hx h3 b
                simp only [k7]
                exact ⟨c, n + m + l, rfl, by rw [k8, k5, k2]; simp, fun hz => by rw [k3 hz, k6 hz, k9 hz]⟩

/-! ## The decoder -/

theorem OutClass.perform_spec (hx : Extends C text) (es : List OutEvent) :
    ∀ o, text (C.perform o es) = text o ++ appendedBy (opsOf es) := by
  induction es with
  | nil => intro o; simp [OutClass.perform, opsOf, appendedBy]
  | cons x es ih =>
    intro o
    cases x with
    | window => simpa [OutClass.perform, opsOf] using ih o
    | op x =>
      cases x with
      | append bytes =>
        rw [OutClass.perform, ih, hx.append]
        simp [opsOf, appendedBy]
      | reserve n =>
        rw [OutClass.perform, ih, hx.reserve]
        simp [opsOf, appendedBy]

theorem Decoder.callTo_spec (hx : Extends C text) {d d' : Decoder} (hd : DecInv d) {c : DecoderCall} {r : DecoderReply}
    (h : d.call c = .ok (r, d')) (o : σ) : ∃ o', d.callTo C o c = .ok (r.ret, o', d') ∧ text o' = text o ++ r.out := by
  have h1 : d.calls [c] = .ok ([r], d') := by simp [Decoder.calls, h]
  have h2 := events_text hd h1
  simp only [Decoder.callTo, h]
  refine ⟨_, rfl, ?_⟩
  cases c with
  | chunk data =>
    simp only [OutClass.perform_spec hx]
    simp only [Decoder.events, h, List.append_nil] at h2
    rw [textOf] at h2
    simp only [List.flatMap_cons, List.flatMap_nil, List.append_nil] at h2
    rw [← h2]
  | start _ | finish | setMaxFile _ | setMaxWin _ | setAllowTarget _ =>
    simp only [Decoder.call, Except.ok.injEq, Prod.mk.injEq] at h
    simp [← h.1]

theorem Decoder.callsTo_spec (hx : Extends C text) {cs : List DecoderCall} :
    ∀ {d d' : Decoder} (_ : DecInv d) {rs : List DecoderReply} (_ : d.calls cs = .ok (rs, d')) (o : σ),
    ∃ o', d.callsTo C o cs = .ok (rs.map (·.ret), o', d') ∧ text o' = text o ++ rs.flatMap (·.out) := by
  induction cs with
  | nil => intro d d' _ rs h o; cases h; exact ⟨o, rfl, by simp⟩
  | cons c cs ih =>
    intro d d' hd rs h o
    rw [Decoder.calls] at h
    cases h1 : d.call c with
    | error f => simp [h1] at h
    | ok p =>
      obtain ⟨r, d1⟩ := p
      simp only [h1] at h
      cases h2 : d1.calls cs with
      | error f => simp [h2] at h
      | ok q =>
        obtain ⟨rs2, d2⟩ := q
        simp only [h2, Except.ok.injEq, Prod.mk.injEq] at h
        obtain ⟨rfl, rfl⟩ := h
        obtain ⟨a, k1, k2⟩ := Decoder.callTo_spec hx hd h1 o
        obtain ⟨b, k4, k5⟩ := ih (hd.call h1) h2 a
        refine ⟨b, ?_, by rw [k5, k2]; simp⟩
        simp [Decoder.callsTo, k1, k4, bind, Except.bind]

end Vcd
