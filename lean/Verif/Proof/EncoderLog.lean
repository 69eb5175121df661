import Verif.Model.EncoderLog
import Verif.Proof.Encoder

/-!
# Messages of the encoder
-/

namespace Vcd
open Spec

theorem noteIf_eq_nil {c : Prop} [Decidable c] {m : EncoderMessage} : noteIf c m = [] ↔ ¬ c := by
  unfold noteIf; split <;> simp_all

theorem mem_noteIf {c : Prop} [Decidable c] {m x : EncoderMessage} : x ∈ noteIf c m ↔ c ∧ x = m := by
  unfold noteIf; split <;> simp_all

namespace Writer

theorem callLog_refusal (w : Writer) (c : CoderCall) : ∀ m ∈ w.callLog c, m.refusal = false := by
  cases c <;> simp only [callLog]
  case add b =>
    split
    · simp
    · split
      · simp
      · simp [mem_noteIf, EncoderMessage.refusal]
  case output =>
    split
    · simp [EncoderMessage.refusal]
    · simp [mem_noteIf, EncoderMessage.refusal]
  all_goals simp

theorem callsLog_refusal (w : Writer) (cs : List CoderCall) : ∀ m ∈ w.callsLog cs, m.refusal = false := by
  induction cs generalizing w with
  | nil => simp [callsLog]
  | cons c cs ih =>
    intro m hm
    rw [callsLog, List.mem_append] at hm
    rcases hm with hm | hm
    · exact callLog_refusal w c m hm
    · cases hc : w.call c with
      | error => simp [hc] at hm
      | ok p => rw [hc] at hm; exact ih p.2 m hm

variable {c : Coding} {maxMode : Nat} {m : InstructionMap}

/-- The last opcode begins with an ADD only if the last instruction was one. -/
theorem Inv.lastAdd {d : Nat} {w : Writer} {ops : List Op} {items : List Item} (hi : Inv c maxMode m d w ops items)
    (ht : w.table = c.table) {bytes : Bytes} (h : w.callLog (.add bytes) ≠ []) : ∃ front bs, ops = front ++ [.add bs] := by
  have hst := hi.state
  have hw := hi.inst
  generalize hl : w.lastOpcode = last at hst
  cases hst with
  | closed hp => simp [callLog, hl] at h
  | @pending items ops op i1 o h1 hp f1 f2 f3 f4 f5 =>
    have hget : w.inst[(items.flatMap (sec w.interleaved)).length]? = some op := by
      rw [hw]; simp [List.flatMap_append]
    simp only [callLog, hl, hget, ne_eq, noteIf_eq_nil, Classical.not_not, ht] at h
    have hadd : h1.inst = vcdAdd := by
      rcases f2 with ⟨g1, g2⟩ | ⟨g1, g2, g3⟩
      · rw [← g1]; exact h
      · rw [h] at g1; exact absurd g1 (by decide)
    refine ⟨ops, ?_⟩
    cases f5 with
    | add k1 k2 => exact ⟨_, rfl⟩
    | run k1 k2 => rw [hadd] at k1; exact absurd k1 (by decide)
    | copy k1 => rw [hadd] at k1; exact absurd k1 (by decide)

/-- Instructions without two ADDs in a row are written without messages. -/
theorem callsLog_silent (u : Usable c maxMode m) {d : Nat} {w : Writer} {done todo : List Op} {items : List Item}
    (hi : Inv c maxMode m d w done items) (ht : w.table = c.table) (hw : WritableAll (d + sizes done) todo)
    (hna : ∀ pre a b post, done ++ todo = pre ++ Op.add a :: b :: post → ∃ x n, b = .copy x n) (hne : done ++ todo ≠ []) :
    w.callsLog (todo.map Op.call ++ [.output]) = [] := by
  induction todo generalizing w done items with
  | nil =>
    rw [List.append_nil] at hne
    simp only [List.map_nil, List.nil_append, callsLog, List.append_eq_nil_iff]
    constructor
    · rcases hi.last with ⟨h1, _⟩ | ⟨⟨fi, x, hitems, _⟩, front, o, h2, h3⟩
      · exact absurd h1 hne
      · have htl : 0 < w.targetLength := by rw [hi.target, h2, sizes_append]; simp [sizes]; omega
        have hinst : w.inst ≠ [] := by
          obtain ⟨op, rest, e⟩ := hi.state.program.head (by rw [hitems]; simp)
          rw [hi.inst, e]; simp
        simp only [callLog, hinst, if_false, noteIf_eq_nil]
        omega
    · cases w.call .output <;> rfl
  | cons o ops ih =>
    obtain ⟨w1, k1, k2, k3, k4, k5, items1, k6⟩ := call_ok u hi hw.1
    have hrest := ih k6 (k4.trans ht) (by
      have := hw.2
      rw [sizes_append]
      simpa [sizes, Nat.add_assoc] using this) (by simpa using hna) (by simp)
    simp only [List.map_cons, List.cons_append, callsLog, k1, hrest, List.append_nil]
    cases o with
    | copy a n => rfl
    | run b n => rfl
    | add bytes =>
      by_cases hx : w.callLog (.add bytes) = []
      · exact hx
      · obtain ⟨front, bs, rfl⟩ := hi.lastAdd ht hx
        obtain ⟨x, n, he⟩ := hna front bs (.add bytes) ops (by simp)
        simp at he

end Writer

namespace Encoder

/-- A call is refused if and only if the encoder says so. -/
theorem callLog_refusal {e e' : Encoder} {c : EncoderCall} {r : EncoderReply} (h : e.call c = .ok (r, e')) :
    (∃ m ∈ e.callLog c, m.refusal = true) ↔ r.ret = false := by
  cases c with
  | start =>
    simp only [call, start] at h
    simp only [callLog, startLog]
    cases hw : e.coder with
    | binary w =>
      simp only [hw] at h ⊢
      cases hi : w.init e.engine.dictionary.length with
      | error f => simp [hi, Except.map] at h
      | ok p =>
        obtain ⟨b, w'⟩ := p
        cases b <;> simp only [hi, Except.map, Except.ok.injEq, Prod.mk.injEq] at h <;> rw [← h.1] <;> simp [EncoderMessage.refusal]
    | json w =>
      simp only [hw] at h ⊢
      cases ha : JsonWriter.isAscii e.engine.dictionary <;> simp only [ha, Bool.false_eq_true, if_false, if_true, Except.map, Except.ok.injEq,
        Prod.mk.injEq] at h <;> rw [← h.1] <;> simp [EncoderMessage.refusal, noteIf]
  | chunk data =>
    simp only [call, chunk] at h
    simp only [callLog, chunkLog]
    cases ha : e.allowed with
    | false =>
      simp only [ha, Bool.not_false, if_true, Except.map, Except.ok.injEq, Prod.mk.injEq] at h
      rw [← h.1]
      simp [EncoderMessage.refusal]
    | true =>
      simp only [ha, Bool.not_true, Bool.false_eq_true, if_false] at h ⊢
      cases hw : e.coder with
      | binary w =>
        simp only [hw] at h ⊢
        cases he : e.engine.encode e.lookForTargetMatches data with
        | error f => simp [he, Except.map] at h
        | ok calls =>
          simp only [he] at h ⊢
          generalize hx : (if e.flags &&& 2 ≠ 0 then w.addChecksum (computeAdler32 data) else w) = w1 at h ⊢
          cases hc : w1.calls calls with
          | error f => simp [hc, Except.map] at h
          | ok p =>
            simp only [hc, Except.map, Except.ok.injEq, Prod.mk.injEq] at h
            rw [← h.1]
            have := Writer.callsLog_refusal w1 calls
            simp only [Bool.true_eq_false, iff_false, not_exists, not_and]
            intro m hm
            simp [this m hm]
      | json w =>
        simp only [hw] at h ⊢
        cases hasc : JsonWriter.isAscii data with
        | false =>
          simp only [hasc, Bool.not_false, if_true, Except.map, Except.ok.injEq, Prod.mk.injEq] at h
          rw [← h.1]
          simp [EncoderMessage.refusal, noteIf]
        | true =>
          simp only [hasc, Bool.not_true, Bool.false_eq_true, if_false] at h
          cases he : e.engine.encode e.lookForTargetMatches data with
          | error f => simp [he, Except.map] at h
          | ok calls =>
            simp only [he, Except.map, Except.ok.injEq, Prod.mk.injEq] at h
            rw [← h.1]
            simp [EncoderMessage.refusal, noteIf]
  | finish =>
    simp only [call, finish] at h
    simp only [callLog, finishLog]
    cases ha : e.allowed with
    | false =>
      simp only [ha, Bool.not_false, if_true, Except.ok.injEq, Prod.mk.injEq] at h
      rw [← h.1]
      simp [EncoderMessage.refusal, noteIf]
    | true =>
      simp only [ha, Bool.not_true, Bool.false_eq_true, if_false] at h
      cases hw : e.coder <;> simp only [hw, Except.ok.injEq, Prod.mk.injEq] at h <;> rw [← h.1] <;> simp [noteIf]

/-- Between calls, an encoder in a binary format writes a message if and only if it refuses. -/
theorem callLog_binary {e0 e e' : Encoder} {dict : Bytes} {m : InstructionMap} (u : Writer.Usable defaultCoding 8 m)
    (he : Engine.init dict = .ok (some e0.engine)) (hd : e0.engine.dictionary = dict) (h : Inv e0 m e) {c : EncoderCall}
    (hs : ∀ data, c = .chunk data → Small dict data) {r : EncoderReply} (hc : e.call c = .ok (r, e')) :
    e.callLog c = [] ↔ r.ret = true := by
  constructor
  · intro hl
    have := callLog_refusal hc
    rw [hl] at this
    cases hr : r.ret with
    | true => rfl
    | false => simp [hr] at this
  · intro hr
    cases c with
    | start =>
      obtain ⟨h1, h2, h3, w, h4, h5, h6, h7⟩ := h
      have : ∃ w', w.init e0.engine.dictionary.length = .ok (true, w') := by
        rcases h7 with ⟨rfl, _⟩ | h7
        · obtain ⟨w', k, _⟩ := Writer.init_ready u (w := Writer.new (e0.flags &&& 1 != 0)) e0.engine.dictionary.length
            rfl rfl (Or.inl rfl) (Or.inl rfl) rfl rfl rfl
          exact ⟨w', k⟩
        · exact ⟨w, h7.init u⟩
      obtain ⟨w', k⟩ := this
      simp only [callLog, startLog, h4, h1, k]
    | finish =>
      simp only [callLog, finishLog, noteIf_eq_nil]
      intro ha
      simp only [call, finish, ha, Bool.not_false, if_true, Except.ok.injEq, Prod.mk.injEq] at hc
      rw [← hc.1] at hr
      simp at hr
    | chunk data =>
      have ha : e.allowed = true := by
        cases ha : e.allowed with
        | true => rfl
        | false =>
          rw [chunk_refused ha] at hc
          simp only [Except.ok.injEq, Prod.mk.injEq] at hc
          rw [← hc.1] at hr
          simp at hr
      obtain ⟨h1, h2, h3, w, h4, h5, h6, h7⟩ := h
      have hready := h7.resolve_left (fun h => by rw [ha] at h; cases h.2)
      obtain ⟨k1, k2⟩ := chunkWriter_ready hready h5 h6 data
      simp only [callLog, chunkLog, ha, Bool.not_true, Bool.false_eq_true, if_false, h4, h1, h2, h3, k1]
      have hsm := hs data rfl
      by_cases hne : data = []
      · rcases window_spec u he hsm (by rw [← hd]; exact k2) with ⟨_, _, w2⟩ | ⟨w1, _⟩
        · rw [w2]; rfl
        · exact absurd hne w1
      · obtain ⟨e1, ops, j1, j2, j3, j4⟩ := Engine.encode_whole (dict := dict) (target := data)
          (matching := e0.lookForTargetMatches) (by simp only [int32Max]; have := hsm.1; omega) hne
        rw [he] at j1
        injection j1 with j1
        injection j1 with j1
        subst j1
        rw [j3]
        obtain ⟨hsens, hcost⟩ := Whole.sensible j4
        have hnil : ops ≠ [] := by
          rintro rfl
          have := j4.exec
          simp [execOps] at this
          exact hne this
        have hT : data.length = sizes ops := by
          have := execOps_length ops dict
          rw [j4.exec, List.length_append] at this; omega
        refine Writer.callsLog_silent u k2.inv k2.table ?_ ?_ (by simpa using hnil)
        · rw [hd]
          have := hsens.writableAll (by have := hsm.1; simp only [int32Max]; omega)
          simpa [sizes] using this
        · simpa using j4.noAddAdd

end Encoder
end Vcd
