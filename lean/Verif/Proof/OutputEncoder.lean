import Verif.Proof.Writer
import Verif.Spec.OutputString

/-!
# The encoder's output string

A window is announced to the output string in full before its first byte is appended.
-/

namespace Vcd
open Spec

/-! ## Appends that fit -/

/-- Appends, and nothing else. -/
def Appends (ops : List OutOp) : Prop := ∀ x ∈ ops, ∃ b, x = .append b

theorem appendedBy_cons (b : Bytes) (ops : List OutOp) : appendedBy (.append b :: ops) = b ++ appendedBy ops := rfl

theorem appendedBy_append (a b : List OutOp) : appendedBy (a ++ b) = appendedBy a ++ appendedBy b := by
  simp [appendedBy]

theorem performAll_text (g : Growth) (o : OutString) (ops : List OutOp) :
    (o.performAll g ops).text = o.text ++ appendedBy ops := by
  induction ops generalizing o with
  | nil => simp [OutString.performAll, appendedBy]
  | cons x ops ih =>
    show ((o.perform g x).performAll g ops).text = _
    rw [ih]
    cases x with
    | append b => simp [OutString.perform, appendedBy_cons]
    | reserve n =>
      have : (o.recap (g.reserve o.capacity (o.text.length + n))).text = o.text := by
        unfold OutString.recap; split <;> rfl
      simp only [OutString.perform, this]
      rfl

theorem appends_fit (g : Growth) {ops : List OutOp} (h : Appends ops) {o : OutString}
    (hf : o.text.length + (appendedBy ops).length ≤ o.capacity) : (o.performAll g ops).resizes = o.resizes := by
  induction ops generalizing o with
  | nil => rfl
  | cons x ops ih =>
    obtain ⟨b, rfl⟩ := h x (by simp)
    rw [appendedBy_cons, List.length_append] at hf
    have e : o.perform g (.append b) = { o with text := o.text ++ b } := by
      simp only [OutString.perform]
      rw [if_pos (by omega)]
    show ((o.perform g (.append b)).performAll g ops).resizes = _
    rw [e, ih (fun x hx => h x (by simp [hx]))]
    simp only [List.length_append]; omega

theorem reserved_fit (g : Growth) (hg : ∀ c n, n ≤ g.reserve c n) {ops : List OutOp} (h : Appends ops) {n : Nat}
    (hn : (appendedBy ops).length ≤ n) (o : OutString) :
    (o.performAll g (.reserve n :: ops)).resizes ≤ o.resizes + 1 := by
  show ((o.recap (g.reserve o.capacity (o.text.length + n))).performAll g ops).resizes ≤ _
  have hc := hg o.capacity (o.text.length + n)
  rw [appends_fit g h]
  · unfold OutString.recap; split <;> simp
  · unfold OutString.recap
    split
    · rename_i he; rw [he] at hc; omega
    · simp only; omega

/-! ## The writer -/

theorem sizeBytes_length {n : Nat} {bs : Bytes} (h : Writer.sizeBytes n = .ok bs) : Writer.sizeLength n = bs.length := by
  by_cases hn : 0 ≤ toInt32 n
  · have hr : (toInt32 n).toNat ≤ int32Max := by
      unfold toInt32 int32Max; split <;> omega
    obtain ⟨bs', e1, _, _, e2⟩ := Writer.sizeBytes_spec hr
    have : toInt32 (toInt32 n).toNat = toInt32 n := by
      rw [Writer.toInt32_eq hr]; omega
    unfold Writer.sizeBytes at h e1
    unfold Writer.sizeLength at e2 ⊢
    rw [this] at e1 e2
    rw [e1] at h
    cases h; exact e2
  · unfold Writer.sizeBytes at h
    rw [if_pos (by omega)] at h
    cases h

theorem outputOps_spec {w w' : Writer} {out : Bytes} (h : w.output = .ok (out, w')) :
    ∃ ops, w.outputOps = .ok ops ∧ appendedBy ops = out ∧
      (ops = [] ∨ ∃ n as, ops = .reserve n :: as ∧ Appends as ∧ (appendedBy as).length = n) := by
  unfold Writer.output at h
  by_cases hi : w.inst = []
  · refine ⟨[], by rw [Writer.outputOps, if_pos hi], ?_, .inl rfl⟩
    simp only [if_pos hi] at h
    split at h <;> simp at h
    rw [h.1]; rfl
  · simp only [if_neg hi] at h
    cases hb : w.windowBytes with
    | error f => simp [hb] at h
    | ok bs =>
      have hout : bs = out := by
        simp only [hb] at h
        split at h <;> simp at h
        exact h.1
      subst hout
      simp only [Writer.windowBytes, Writer.deltaBytes, bind, Except.bind] at hb
      rw [Writer.outputOps, if_neg hi]
      simp only [bind, Except.bind]
      cases h1 : Writer.sizeBytes w.dictionarySize with
      | error f => simp [h1] at hb
      | ok b1 =>
      cases h2 : Writer.sizeBytes 0 with
      | error f => simp [h1, h2] at hb
      | ok b2 =>
      cases h3 : Writer.sizeBytes w.deltaLength with
      | error f => simp [h1, h2, h3] at hb
      | ok b3 =>
      cases h4 : Writer.sizeBytes w.targetLength with
      | error f => simp [h1, h2, h3, h4] at hb
      | ok b4 =>
      cases h5 : Writer.sizeBytes w.data.length with
      | error f => simp [h1, h2, h3, h4, h5] at hb
      | ok b5 =>
      cases h6 : Writer.sizeBytes w.inst.length with
      | error f => simp [h1, h2, h3, h4, h5, h6] at hb
      | ok b6 =>
      cases h7 : Writer.sizeBytes w.addr.length with
      | error f => simp [h1, h2, h3, h4, h5, h6, h7] at hb
      | ok b7 =>
      cases h8 : Writer.checksumBytes w.checksum with
      | error f => simp [h1, h2, h3, h4, h5, h6, h7, h8] at hb
      | ok b8 =>
      simp only [h1, h2, h3, h4, h5, h6, h7, h8] at hb ⊢
      split at hb
      · cases hb
      · rename_i hl
        simp only [Except.ok.injEq] at hb
        have hc : w.checksum.isSome = false → b8 = [] := by
          intro hs
          cases hk : w.checksum with
          | some c => simp [hk] at hs
          | none => rw [hk] at h8; simpa [Writer.checksumBytes] using h8.symm
        refine ⟨_, rfl, ?_, .inr ⟨w.windowSize, _, rfl, ?_, ?_⟩⟩
        · rw [← hb]
          cases hs : w.checksum.isSome with
          | true => simp [appendedBy]
          | false => simp [appendedBy, hc hs]
        · intro x hx
          cases hs : w.checksum.isSome with
          | true => simp [hs] at hx; grind
          | false => simp [hs] at hx; grind
        · have e1 := sizeBytes_length h1
          have e2 := sizeBytes_length h2
          have e3 := sizeBytes_length h3
          rw [Writer.windowSize, e1, e2, e3, Classical.not_not.1 hl]
          cases hs : w.checksum.isSome with
          | true => simp [appendedBy]; omega
          | false => simp [appendedBy, hc hs]; omega

theorem callsOps_quiet {w : Writer} {cs : List CoderCall} (hq : CoderCall.output ∉ cs) :
    ∀ {last : List CoderCall} {out : Bytes} {w' : Writer}, w.calls (cs ++ last) = .ok (out, w') →
      ∃ w1 : Writer, w1.calls last = .ok (out, w') ∧ w.callsOps (cs ++ last) = w1.callsOps last := by
  induction cs generalizing w with
  | nil => intro last out w' h; exact ⟨w, h, rfl⟩
  | cons c cs ih =>
    intro last out w' h
    rw [List.cons_append, Writer.calls] at h
    cases h1 : w.call c with
    | error f => simp [h1] at h
    | ok p =>
      obtain ⟨o1, w1⟩ := p
      simp only [h1] at h
      have ho : o1 = [] ∧ c ≠ .output := by
        cases c with
        | output => simp at hq
        | add b =>
          simp only [Writer.call] at h1
          cases h2 : w.add b with
          | error f => simp [h2, Except.map] at h1
          | ok w2 => simp [h2, Except.map] at h1; exact ⟨h1.1, by simp⟩
        | copy a b =>
          simp only [Writer.call] at h1
          cases h2 : w.copy a b with
          | error f => simp [h2, Except.map] at h1
          | ok w2 => simp [h2, Except.map] at h1; exact ⟨h1.1, by simp⟩
        | run a b =>
          simp only [Writer.call] at h1
          cases h2 : w.run a b with
          | error f => simp [h2, Except.map] at h1
          | ok w2 => simp [h2, Except.map] at h1; exact ⟨h1.1, by simp⟩
      cases h2 : w1.calls (cs ++ last) with
      | error f => simp [h2, Except.map] at h
      | ok q =>
        simp only [h2, Except.map, Except.ok.injEq, Prod.mk.injEq, ho.1, List.nil_append] at h
        obtain ⟨w2, k1, k2⟩ := ih (w := w1) (fun hx => hq (by simp [hx])) (last := last) (out := q.1) (w' := q.2) h2
        refine ⟨w2, by rw [k1, ← h.1, ← h.2], ?_⟩
        rw [List.cons_append, ← k2]
        cases c with
        | output => exact absurd rfl ho.2
        | add _ | copy _ _ | run _ _ =>
          simp only [Writer.callsOps, h1, bind, Except.bind]
          cases w1.callsOps (cs ++ last) <;> simp [Except.map]

/-! ## The engine: the output string is used at the end, once -/

theorem copyForBestMatch_quiet {hashed : BlockHash} {th : Option BlockHash} {hv : UInt32} {t : Bytes} {c n : Nat}
    {made : List CoderCall} (h : Engine.encodeCopyForBestMatch hashed th hv t c = .ok (n, made)) :
    CoderCall.output ∉ made := by
  simp only [Engine.encodeCopyForBestMatch, bind, Except.bind] at h
  split at h
  · cases h
  · split at h
    · cases h; simp
    · split at h
      · split at h
        · cases h
        · cases h; simp
      · cases h; simp

theorem remainder_quiet (t : Bytes) : CoderCall.output ∉ Engine.addUnmatchedRemainder t := by
  unfold Engine.addUnmatchedRemainder; split <;> simp

theorem encodeLoop_quiet {hashed : BlockHash} {target : Bytes} (fuel : Nat) :
    ∀ {ne c : Nat} {hv : UInt32} {th : Option BlockHash} {cs : List CoderCall} {n : Nat} {cs' : List CoderCall},
      CoderCall.output ∉ cs → Engine.encodeLoop hashed target fuel ne c hv th cs = .ok (n, cs') →
      CoderCall.output ∉ cs' := by
  induction fuel with
  | zero => intro ne c hv th cs n cs' _ h; cases h
  | succ fuel ih =>
    intro ne c hv th cs n cs' hq h
    rw [Engine.encodeLoop] at h
    simp only [bind, Except.bind] at h
    cases h1 : Engine.encodeCopyForBestMatch hashed th hv (target.drop ne) (c - ne) with
    | error f => simp [h1] at h
    | ok p =>
      obtain ⟨k, made⟩ := p
      have hm := copyForBestMatch_quiet h1
      have hq' : CoderCall.output ∉ cs ++ made := by simp [hq, hm]
      simp only [h1] at h
      split at h
      · split at h
        · cases h; exact hq'
        · split at h
          · cases h
          · split at h
            · cases h
            · exact ih hq' h
      · split at h
        · cases h; exact hq
        · split at h
          · cases h
          · split at h
            · exact ih hq h
            · cases h

theorem encode_shape {e : Engine} {l : Bool} {t : Bytes} {cs : List CoderCall} (h : e.encode l t = .ok cs) :
    cs = [] ∨ ∃ q, CoderCall.output ∉ q ∧ cs = q ++ [.output] := by
  unfold Engine.encode at h
  split at h
  · cases h
  · split at h
    · cases h; exact .inl rfl
    · split at h
      · cases h; exact .inr ⟨_, remainder_quiet _, rfl⟩
      · simp only [bind, Except.bind] at h
        split at h
        · cases h
        · split at h
          · cases h
          · split at h
            · cases h
            · rename_i p hp
              obtain ⟨n, cs1⟩ := p
              cases h
              refine .inr ⟨_, ?_, rfl⟩
              have := encodeLoop_quiet _ (by simp) hp
              simp [this, remainder_quiet]

theorem callsOps_output {w w' : Writer} {out : Bytes} (h : w.calls [.output] = .ok (out, w')) :
    ∃ ops, w.callsOps [.output] = .ok ops ∧ appendedBy ops = out ∧
      (ops = [] ∨ ∃ n as, ops = .reserve n :: as ∧ Appends as ∧ (appendedBy as).length = n) := by
  simp only [Writer.calls, Writer.call] at h
  cases h1 : w.output with
  | error f => simp [h1] at h
  | ok p =>
    obtain ⟨o1, w1⟩ := p
    simp only [h1, Except.map, Except.ok.injEq, Prod.mk.injEq, List.append_nil] at h
    obtain ⟨ops, k1, k2, k3⟩ := outputOps_spec h1
    refine ⟨ops, ?_, by rw [k2, h.1], k3⟩
    simp [Writer.callsOps, Writer.call, k1, h1, bind, Except.bind, Except.map]

theorem jsonOps_quiet {w : JsonWriter} {cs : List CoderCall} (hq : CoderCall.output ∉ cs) :
    ∃ w1 : JsonWriter, w.calls (cs ++ [.output]) = w1.calls [.output] ∧ w.callsOps (cs ++ [.output]) = w1.callsOps [.output] := by
  induction cs generalizing w with
  | nil => exact ⟨w, rfl, rfl⟩
  | cons c cs ih =>
    have hc : c ≠ .output := fun h => hq (h ▸ List.mem_cons_self)
    obtain ⟨w1, k1, k2⟩ := ih (w := (w.call c).2) (fun h => hq (List.mem_cons_of_mem _ h))
    refine ⟨w1, ?_, ?_⟩
    · rw [← k1]
      cases c <;> simp_all [JsonWriter.calls, JsonWriter.call]
    · rw [← k2]
      cases c <;> simp_all [JsonWriter.callsOps]

theorem chunkOps_spec {e e' : Encoder} {data out : Bytes} {ret : Bool}
    (h : e.chunk data = .ok (ret, out, e')) :
    ∃ ops, e.chunkOps data = .ok ops ∧ appendedBy ops = out ∧
      (ops = [] ∨ (∃ b, ops = [.append b]) ∨ ∃ n as, ops = .reserve n :: as ∧ Appends as ∧ (appendedBy as).length = n) := by
  unfold Encoder.chunk at h
  unfold Encoder.chunkOps
  by_cases ha : (!e.allowed) = true
  · rw [if_pos ha] at h ⊢
    cases h
    exact ⟨[], rfl, rfl, .inl rfl⟩
  · rw [if_neg ha] at h ⊢
    cases hb : e.coder with
    | binary w =>
      simp only [hb] at h ⊢
      generalize (if e.flags &&& 2 ≠ 0 then w.addChecksum (computeAdler32 data) else w) = w0 at h ⊢
      cases h1 : e.engine.encode e.lookForTargetMatches data with
      | error f => simp [h1] at h
      | ok cs =>
        simp only [h1] at h ⊢
        cases h2 : w0.calls cs with
        | error f => simp [h2] at h
        | ok p =>
          obtain ⟨o1, w1⟩ := p
          simp only [h2, Except.ok.injEq, Prod.mk.injEq] at h
          rw [← h.2.1]
          rcases encode_shape h1 with rfl | ⟨q, hq, rfl⟩
          · cases h2
            exact ⟨[], rfl, rfl, .inl rfl⟩
          · obtain ⟨w2, k1, k2⟩ := callsOps_quiet hq h2
            rw [k2]
            obtain ⟨ops, j1, j2, j3⟩ := callsOps_output k1
            exact ⟨ops, j1, j2, j3.imp id .inr⟩
    | json w =>
      simp only [hb] at h ⊢
      by_cases hi : (!JsonWriter.isAscii data) = true
      · rw [if_pos hi] at h ⊢
        cases h
        exact ⟨[], rfl, rfl, .inl rfl⟩
      · rw [if_neg hi] at h ⊢
        cases h1 : e.engine.encode e.lookForTargetMatches data with
        | error f => simp [h1] at h
        | ok cs =>
          simp only [h1, Except.ok.injEq, Prod.mk.injEq] at h ⊢
          refine ⟨_, rfl, ?_⟩
          rw [← h.2.1]
          rcases encode_shape h1 with rfl | ⟨q, hq, rfl⟩
          · exact ⟨rfl, .inl rfl⟩
          · obtain ⟨w1, k1, k2⟩ := jsonOps_quiet (w := w) hq
            rw [k1, k2]
            exact ⟨by simp [JsonWriter.callsOps, JsonWriter.calls, JsonWriter.call, JsonWriter.flush, appendedBy], .inr (.inl ⟨w1.output, rfl⟩)⟩

end Vcd
