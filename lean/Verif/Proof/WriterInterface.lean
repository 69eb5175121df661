import Verif.Proof.Encoder
import Verif.Spec.WriterInterface

/-!
# Encoders with a writer of the caller: lemmas
-/

namespace Vcd
open Spec

theorem Except.map_eq_ok {ε α β : Type} {f : α → β} {x : Except ε α} {b : β} (h : x.map f = .ok b) :
    ∃ a, x = .ok a ∧ f a = b := by
  cases x with
  | error e => cases h
  | ok a => cases h; exact ⟨a, rfl, rfl⟩

/-! ## What a writer sees -/

theorem recording_call {σ : Type} {w : WriterInterface σ} {s s' : σ × List Event} {o : Op} {out : Bytes}
    (h : (recording w).call s o.call = .ok (out, s')) : out = [] ∧ s'.2 = s.2 ++ [o.event] := by
  cases o <;> simp only [Op.call, WriterInterface.call, recording] at h
  all_goals
    obtain ⟨a, h1, h2⟩ := Except.map_eq_ok h
    obtain ⟨b, h3, h4⟩ := Except.map_eq_ok h1
    cases h4
    cases h2
    exact ⟨rfl, rfl⟩

theorem recording_calls {σ : Type} {w : WriterInterface σ} (ops : List Op) : ∀ {s s' : σ × List Event} {out : Bytes},
    (recording w).calls s (ops.map Op.call ++ [.output]) = .ok (out, s') →
    s'.2 = s.2 ++ ops.map Op.event ++ [.output out] := by
  induction ops with
  | nil =>
    intro s s' out h
    simp only [List.map_nil, List.nil_append, WriterInterface.calls] at h
    split at h
    · cases h
    · rename_i out1 s1 h1
      simp only [WriterInterface.call, recording] at h1
      obtain ⟨a, _, h2⟩ := Except.map_eq_ok h1
      cases h2
      cases h
      simp
  | cons o ops ih =>
    intro s s' out h
    simp only [List.map_cons, List.cons_append, WriterInterface.calls] at h
    split at h
    · cases h
    · rename_i out1 s1 h1
      obtain ⟨rfl, h2⟩ := recording_call h1
      obtain ⟨⟨out2, s2⟩, h3, h4⟩ := Except.map_eq_ok h
      cases h4
      rw [ih h3, h2]
      simp

/-- One API call. -/
theorem StreamEncoder.call_answered {σ : Type} {w : WriterInterface σ} {dict : Bytes}
    {e e' : StreamEncoder (σ × List Event)} (hw : e.writer = recording w) (he : Engine.init dict = .ok (some e.engine))
    (hd : e.engine.dictionary = dict) {c : EncoderCall} {r : EncoderReply}
    (hs : ∀ data, c = .chunk data → dict.length + data.length < 2 ^ 31) (h : e.call c = .ok (r, e')) :
    ∃ es, e'.state.2 = e.state.2 ++ es ∧ Answered dict e.flags e.lookForTargetMatches e.allowed c es r e'.allowed ∧
      e'.writer = e.writer ∧ e'.engine = e.engine ∧ e'.flags = e.flags ∧ e'.lookForTargetMatches = e.lookForTargetMatches := by
  cases c with
  | start =>
    simp only [call, start, hw, hd] at h
    split at h
    · cases h
    · rename_i s1 h1
      cases h
      obtain ⟨⟨b1, a1⟩, _, k⟩ := Except.map_eq_ok h1
      cases k
      exact ⟨_, rfl, .noInit, by simp [hw]⟩
    · rename_i s1 h1
      obtain ⟨⟨b1, a1⟩, _, k⟩ := Except.map_eq_ok h1
      cases k
      split at h
      · cases h
      · rename_i s2 h2
        cases h
        obtain ⟨⟨b2, a2⟩, _, k⟩ := Except.map_eq_ok h2
        cases k
        exact ⟨_, by rw [List.append_assoc]; rfl, .badDictionary, by simp [hw]⟩
      · rename_i s2 h2
        obtain ⟨⟨b2, a2⟩, _, k⟩ := Except.map_eq_ok h2
        cases k
        split at h
        · cases h
        · rename_i out s3 h3
          cases h
          obtain ⟨⟨b3, a3⟩, _, k⟩ := Except.map_eq_ok h3
          cases k
          exact ⟨_, by rw [List.append_assoc, List.append_assoc]; rfl, .start, by simp [hw]⟩
  | finish =>
    simp only [call, finish, hw] at h
    cases ha : e.allowed
    · simp only [ha, Bool.not_false, if_true] at h
      cases h
      exact ⟨[], by simp, by rw [ha]; exact .finishRefused, by simp⟩
    · simp only [ha, Bool.not_true, Bool.false_eq_true, if_false] at h
      split at h
      · cases h
      · rename_i out s1 h1
        cases h
        obtain ⟨⟨b1, a1⟩, _, k⟩ := Except.map_eq_ok h1
        cases k
        exact ⟨_, rfl, .finish, by simp [hw]⟩
  | chunk data =>
    have hl := hs data rfl
    simp only [call, chunk, hw] at h
    cases ha : e.allowed
    · simp only [ha, Bool.not_false, if_true] at h
      cases h
      exact ⟨[], by simp, by rw [ha]; exact .chunkRefused, by simp⟩
    · simp only [ha, Bool.not_true, Bool.false_eq_true, if_false] at h
      split at h
      · cases h
      · rename_i s1 h1
        cases h
        obtain ⟨⟨b1, a1⟩, _, k⟩ := Except.map_eq_ok h1
        cases k
        exact ⟨_, rfl, Answered.badChunk, by simp [hw]⟩
      · rename_i s1 h1
        obtain ⟨⟨b1, a1⟩, _, k⟩ := Except.map_eq_ok h1
        cases k
        split at h
        · cases h
        · rename_i s2 h2
          have h2' : s2.2 = e.state.2 ++ ([.verifyChunk data true] ++
              if e.flags &&& 2 ≠ 0 then [.addChecksum (adlerOf data)] else []) := by
            split at h2
            · rename_i hf
              obtain ⟨a2, _, k⟩ := Except.map_eq_ok h2
              cases k
              rw [if_pos hf, computeAdler32_eq data (by omega)]
              simp
            · rename_i hf
              cases h2
              rw [if_neg hf]
              simp
          by_cases hne : data = []
          · subst hne
            obtain ⟨eng, hashed, i1, i2, _⟩ := Engine.init_ok (dict := dict) (by simp only [int32Max]; omega)
            rw [he] at i1
            injection i1 with i1
            injection i1 with i1
            have i3 : e.engine.encode e.lookForTargetMatches [] = .ok [] := by rw [i1, i2]; rfl
            simp only [i3, WriterInterface.calls] at h
            cases h
            exact ⟨_, h2', Answered.emptyChunk, by simp [hw]⟩
          · obtain ⟨eng, ops, i1, _, i3, i4⟩ := Engine.encode_whole (dict := dict) (target := data)
              (matching := e.lookForTargetMatches) (by simp only [int32Max]; omega) hne
            rw [he] at i1
            injection i1 with i1
            injection i1 with i1
            rw [i1, i3] at h
            dsimp only at h
            split at h
            · cases h
            · rename_i out s3 h3
              cases h
              refine ⟨_, ?_, Answered.chunk hne ⟨i4.exec, i4.emittable, i4.noAddAdd⟩, by simp [hw, i1]⟩
              rw [recording_calls ops h3, h2']
              simp only [List.append_assoc]

theorem StreamEncoder.calls_session {σ : Type} {w : WriterInterface σ} {dict : Bytes} (cs : List EncoderCall) :
    ∀ {e e' : StreamEncoder (σ × List Event)} {rs : List EncoderReply}, e.writer = recording w →
    Engine.init dict = .ok (some e.engine) → e.engine.dictionary = dict →
    EachChunk (fun data => dict.length + data.length < 2 ^ 31) cs → e.calls cs = .ok (rs, e') →
    ∃ es, e'.state.2 = e.state.2 ++ es ∧ WriterSession dict e.flags e.lookForTargetMatches e.allowed cs es rs := by
  induction cs with
  | nil =>
    intro e e' rs _ _ _ _ h
    cases h
    exact ⟨[], by simp, .nil⟩
  | cons c cs ih =>
    intro e e' rs hw he hd hs h
    simp only [calls] at h
    split at h
    · cases h
    · rename_i r e1 h1
      split at h
      · cases h
      · rename_i rs2 e2 h2
        cases h
        obtain ⟨es, k1, k2, k3, k4, k5, k6⟩ := call_answered hw he hd
          (fun data hc => hs data (by rw [hc]; exact List.mem_cons_self ..)) h1
        obtain ⟨es', j1, j2⟩ := ih (by rw [k3, hw]) (by rw [k4, he]) (by rw [k4, hd])
          (fun data hm => hs data (List.mem_cons_of_mem _ hm)) h2
        refine ⟨es ++ es', by rw [j1, k1, List.append_assoc], .cons k2 ?_⟩
        rw [k5, k6] at j2
        exact j2

/-! ## Writers that cannot be told apart -/

theorem Spec.AlikeResult.cases {σ τ α : Type} {R : σ → τ → Prop} {x : Except Fault (α × σ)} {y : Except Fault (α × τ)}
    (h : AlikeResult R x y) : (∃ f, x = .error f ∧ y = .error f) ∨ ∃ a s t, x = .ok (a, s) ∧ y = .ok (a, t) ∧ R s t := by
  match x, y, h with
  | .error f, .error g, h => exact Or.inl ⟨f, rfl, by rw [show f = g from h]⟩
  | .ok (a, s), .ok (b, t), h => exact Or.inr ⟨a, s, t, rfl, by rw [h.1], h.2⟩

theorem Spec.AlikeState.cases {σ τ : Type} {R : σ → τ → Prop} {x : Except Fault σ} {y : Except Fault τ}
    (h : AlikeState R x y) : (∃ f, x = .error f ∧ y = .error f) ∨ ∃ s t, x = .ok s ∧ y = .ok t ∧ R s t := by
  match x, y, h with
  | .error f, .error g, h => exact Or.inl ⟨f, rfl, by rw [show f = g from h]⟩
  | .ok s, .ok t, h => exact Or.inr ⟨s, t, rfl, rfl, h⟩

theorem Spec.AlikeState.result {σ τ α : Type} {R : σ → τ → Prop} {x : Except Fault σ} {y : Except Fault τ}
    (h : AlikeState R x y) (a : α) : AlikeResult R (x.map fun s => (a, s)) (y.map fun s => (a, s)) := by
  rcases h.cases with ⟨f, rfl, rfl⟩ | ⟨s, t, rfl, rfl, h⟩
  · rfl
  · exact ⟨rfl, h⟩

theorem Spec.Alike.calls {σ τ : Type} {R : σ → τ → Prop} {w : WriterInterface σ} {v : WriterInterface τ} (a : Alike R w v)
    (cs : List CoderCall) : ∀ {s : σ} {t : τ}, R s t → AlikeResult R (w.calls s cs) (v.calls t cs) := by
  induction cs with
  | nil => intro s t h; exact ⟨rfl, h⟩
  | cons c cs ih =>
    intro s t h
    have hc : AlikeResult R (w.call s c) (v.call t c) := by
      cases c with
      | add bs => exact (a.add s t bs h).result _
      | copy x n => exact (a.copy s t x n h).result _
      | run n b => exact (a.run s t n b h).result _
      | output => exact a.output s t h
    rw [WriterInterface.calls, WriterInterface.calls]
    rcases hc.cases with ⟨f, h1, h2⟩ | ⟨out, s1, t1, h1, h2, h3⟩
    · rw [h1, h2]; rfl
    · rw [h1, h2]
      dsimp only
      rcases (ih h3).cases with ⟨f, k1, k2⟩ | ⟨out2, s2, t2, k1, k2, k3⟩
      · rw [k1, k2]; rfl
      · rw [k1, k2]; exact ⟨rfl, k3⟩

/-- The two encoders. -/
structure StreamEncoder.Same {σ τ : Type} (R : σ → τ → Prop) (w : WriterInterface σ) (v : WriterInterface τ)
    (e : StreamEncoder σ) (d : StreamEncoder τ) : Prop where
  writer : e.writer = w
  writer' : d.writer = v
  engine : d.engine = e.engine
  state : R e.state d.state
  flags : d.flags = e.flags
  matching : d.lookForTargetMatches = e.lookForTargetMatches
  allowed : d.allowed = e.allowed

theorem StreamEncoder.Same.call {σ τ : Type} {R : σ → τ → Prop} {w : WriterInterface σ} {v : WriterInterface τ}
    (a : Alike R w v) {e : StreamEncoder σ} {d : StreamEncoder τ} (h : Same R w v e d) (c : EncoderCall) :
    AlikeResult (Same R w v) (e.call c) (d.call c) := by
  obtain ⟨h1, h2, h3, h4, h5, h6, h7⟩ := h
  cases c with
  | start =>
    simp only [StreamEncoder.call, StreamEncoder.start, h1, h2, h3, h5]
    rcases (a.init _ _ e.engine.dictionary.length h4).cases with ⟨f, k1, k2⟩ | ⟨b, s1, t1, k1, k2, k3⟩
    · rw [k1, k2]; rfl
    · rw [k1, k2]
      cases b
      · exact ⟨rfl, by constructor <;> first | rfl | assumption⟩
      · dsimp only
        rcases (a.verifyDictionary _ _ e.engine.dictionary k3).cases with ⟨f, j1, j2⟩ | ⟨b, s2, t2, j1, j2, j3⟩
        · rw [j1, j2]; rfl
        · rw [j1, j2]
          cases b
          · exact ⟨rfl, by constructor <;> first | rfl | assumption⟩
          · dsimp only
            rcases (a.writeHeader _ _ e.flags j3).cases with ⟨f, i1, i2⟩ | ⟨b, s2, t2, i1, i2, i3⟩
            · rw [i1, i2]; rfl
            · rw [i1, i2]
              exact ⟨rfl, by constructor <;> first | rfl | assumption⟩
  | finish =>
    simp only [StreamEncoder.call, StreamEncoder.finish, h1, h2, h7]
    cases e.allowed
    · exact ⟨rfl, h1, h2, h3, h4, h5, h6, h7⟩
    · simp only [Bool.not_true, Bool.false_eq_true, if_false]
      rcases (a.finishEncoding _ _ h4).cases with ⟨f, k1, k2⟩ | ⟨b, s1, t1, k1, k2, k3⟩
      · rw [k1, k2]; rfl
      · rw [k1, k2]
        exact ⟨rfl, by constructor <;> first | rfl | assumption⟩
  | chunk data =>
    simp only [StreamEncoder.call, StreamEncoder.chunk, h1, h2, h3, h5, h6, h7]
    cases ha : e.allowed
    · exact ⟨rfl, h1, h2, h3, h4, h5, h6, h7⟩
    · simp only [Bool.not_true, Bool.false_eq_true, if_false]
      rcases (a.verifyChunk _ _ data h4).cases with ⟨f, k1, k2⟩ | ⟨b, s1, t1, k1, k2, k3⟩
      · rw [k1, k2]; rfl
      · rw [k1, k2]
        cases b
        · exact ⟨rfl, by constructor <;> first | rfl | assumption⟩
        · dsimp only
          have hck : AlikeState R (if e.flags &&& 2 ≠ 0 then w.addChecksum s1 (computeAdler32 data) else .ok s1)
              (if e.flags &&& 2 ≠ 0 then v.addChecksum t1 (computeAdler32 data) else .ok t1) := by
            split
            · exact a.addChecksum _ _ _ k3
            · exact k3
          rcases hck.cases with ⟨f, j1, j2⟩ | ⟨s2, t2, j1, j2, j3⟩
          · rw [j1, j2]; rfl
          · rw [j1, j2]
            dsimp only
            cases e.engine.encode e.lookForTargetMatches data with
            | error f => rfl
            | ok calls =>
              dsimp only
              rcases (a.calls calls j3).cases with ⟨f, i1, i2⟩ | ⟨out, s3, t3, i1, i2, i3⟩
              · rw [i1, i2]; rfl
              · rw [i1, i2]
                exact ⟨rfl, by constructor <;> first | rfl | assumption⟩

theorem StreamEncoder.Same.calls {σ τ : Type} {R : σ → τ → Prop} {w : WriterInterface σ} {v : WriterInterface τ}
    (a : Alike R w v) (cs : List EncoderCall) : ∀ {e : StreamEncoder σ} {d : StreamEncoder τ}, Same R w v e d →
    AlikeResult (Same R w v) (e.calls cs) (d.calls cs) := by
  induction cs with
  | nil => intro e d h; exact ⟨rfl, h⟩
  | cons c cs ih =>
    intro e d h
    rw [StreamEncoder.calls, StreamEncoder.calls]
    rcases (h.call a c).cases with ⟨f, h1, h2⟩ | ⟨out, s1, t1, h1, h2, h3⟩
    · rw [h1, h2]; rfl
    · rw [h1, h2]
      dsimp only
      rcases (ih h3).cases with ⟨f, k1, k2⟩ | ⟨out2, s2, t2, k1, k2, k3⟩
      · rw [k1, k2]; rfl
      · rw [k1, k2]; exact ⟨rfl, k3⟩

theorem recording_alike {σ : Type} (w : WriterInterface σ) : Alike (fun s t => t.1 = s) w (recording w) := by
  have res : ∀ {α : Type} (x : Except Fault (α × σ)) (f : α → List Event),
      AlikeResult (fun (s : σ) (t : σ × List Event) => t.1 = s) x (x.map fun r => (r.1, r.2, f r.1)) := by
    intro α x f
    cases x with
    | error e => rfl
    | ok r => exact ⟨rfl, rfl⟩
  have st : ∀ (x : Except Fault σ) (l : List Event),
      AlikeState (fun (s : σ) (t : σ × List Event) => t.1 = s) x (x.map fun r => (r, l)) := by
    intro x l
    cases x with
    | error e => rfl
    | ok r => rfl
  constructor
  · rintro s ⟨t, l⟩ n rfl; exact res _ fun b => l ++ [.init n b]
  · rintro s ⟨t, l⟩ n rfl; exact res _ fun b => l ++ [.writeHeader n b]
  · rintro s ⟨t, l⟩ n rfl; exact st _ _
  · rintro s ⟨t, l⟩ n m rfl; exact st _ _
  · rintro s ⟨t, l⟩ n m rfl; exact st _ _
  · rintro s ⟨t, l⟩ n rfl; exact st _ _
  · rintro s ⟨t, l⟩ rfl; exact res _ fun b => l ++ [.output b]
  · rintro s ⟨t, l⟩ rfl; exact res _ fun b => l ++ [.finishEncoding b]
  · rintro s ⟨t, l⟩ n rfl; exact res _ fun b => l ++ [.verifyDictionary n b]
  · rintro s ⟨t, l⟩ n rfl; exact res _ fun b => l ++ [.verifyChunk n b]

/-! ## The writers of the library -/

theorem libraryWriter_binary (cs : List CoderCall) : ∀ (w : Writer),
    libraryWriter.calls (.binary w) cs = (w.calls cs).map fun r => (r.1, .binary r.2) := by
  induction cs with
  | nil => intro w; rfl
  | cons c cs ih =>
    intro w
    have hc : libraryWriter.call (.binary w) c = (w.call c).map fun r => (r.1, .binary r.2) := by
      cases c with
      | add bs => simp only [WriterInterface.call, libraryWriter, Writer.call]; cases w.add bs <;> rfl
      | copy x n => simp only [WriterInterface.call, libraryWriter, Writer.call]; cases w.copy x n <;> rfl
      | run n b => simp only [WriterInterface.call, libraryWriter, Writer.call]; cases w.run n b <;> rfl
      | output => rfl
    rw [WriterInterface.calls, Writer.calls, hc]
    cases w.call c with
    | error f => rfl
    | ok r =>
      simp only [Except.map]
      rw [ih]
      cases r.2.calls cs <;> rfl

theorem libraryWriter_json (cs : List CoderCall) : ∀ (w : JsonWriter),
    libraryWriter.calls (.json w) cs = .ok ((w.calls cs).1, .json (w.calls cs).2) := by
  induction cs with
  | nil => intro w; rfl
  | cons c cs ih =>
    intro w
    have hc : libraryWriter.call (.json w) c = .ok ((w.call c).1, .json (w.call c).2) := by cases c <;> rfl
    rw [WriterInterface.calls, hc]
    simp only [JsonWriter.calls]
    rw [ih]
    rfl

/-- The encoder of the library as an encoder with an arbitrary writer. -/
def Encoder.stream (e : Encoder) : StreamEncoder Coder :=
  { engine := e.engine, writer := libraryWriter, state := e.coder, flags := e.flags,
    lookForTargetMatches := e.lookForTargetMatches, allowed := e.allowed }

theorem Encoder.stream_call (e : Encoder) (c : EncoderCall) :
    e.stream.call c = (e.call c).map fun r => (r.1, r.2.stream) := by
  cases c with
  | start =>
    cases hc : e.coder with
    | binary w =>
      simp only [StreamEncoder.call, StreamEncoder.start, Encoder.call, Encoder.start, Encoder.stream, hc, libraryWriter]
      cases h : w.init e.engine.dictionary.length with
      | error f => rfl
      | ok r =>
        obtain ⟨b, w'⟩ := r
        cases b <;> rfl
    | json w =>
      simp only [StreamEncoder.call, StreamEncoder.start, Encoder.call, Encoder.start, Encoder.stream, hc, libraryWriter]
      cases h : JsonWriter.isAscii e.engine.dictionary <;> rfl
  | finish =>
    simp only [StreamEncoder.call, StreamEncoder.finish, Encoder.call, Encoder.finish]
    have ha : e.stream.allowed = e.allowed := rfl
    rw [ha]
    cases ha : e.allowed
    · rfl
    · simp only [Bool.not_true, Bool.false_eq_true, if_false]
      cases hc : e.coder with
      | binary w =>
        have hv : e.stream.writer.finishEncoding e.stream.state = .ok ([], .binary w) := by
          simp only [Encoder.stream, hc, libraryWriter]
        rw [hv]
        simp [Except.map, Encoder.stream, hc]
      | json w =>
        have hv : e.stream.writer.finishEncoding e.stream.state = .ok (w.finish, .json w) := by
          simp only [Encoder.stream, hc, libraryWriter]
        rw [hv]
        simp [Except.map, Encoder.stream, hc]
  | chunk data =>
    simp only [StreamEncoder.call, StreamEncoder.chunk, Encoder.call, Encoder.chunk]
    have ha : e.stream.allowed = e.allowed := rfl
    rw [ha]
    cases ha : e.allowed
    · rfl
    · simp only [Bool.not_true, Bool.false_eq_true, if_false]
      cases hc : e.coder with
      | binary w =>
        have hv : e.stream.writer.verifyChunk e.stream.state data = .ok (true, .binary w) := by
          simp only [Encoder.stream, hc, libraryWriter]
        rw [hv]
        dsimp only
        have hk : (if e.stream.flags &&& 2 ≠ 0 then e.stream.writer.addChecksum (.binary w) (computeAdler32 data) else .ok (.binary w))
            = .ok (.binary (if e.flags &&& 2 ≠ 0 then w.addChecksum (computeAdler32 data) else w)) := by
          have hf : e.stream.flags = e.flags := rfl
          rw [hf]
          by_cases h2 : e.flags &&& 2 ≠ 0
          · rw [if_pos h2, if_pos h2]; rfl
          · rw [if_neg h2, if_neg h2]
        rw [hk]
        dsimp only
        have he : e.stream.engine.encode e.stream.lookForTargetMatches data = e.engine.encode e.lookForTargetMatches data := rfl
        rw [he]
        cases e.engine.encode e.lookForTargetMatches data with
        | error f => rfl
        | ok calls =>
          dsimp only
          have hw : e.stream.writer = libraryWriter := rfl
          rw [hw, libraryWriter_binary]
          cases Writer.calls (if e.flags &&& 2 ≠ 0 then w.addChecksum (computeAdler32 data) else w) calls with
          | error f => rfl
          | ok r => rfl
      | json w =>
        have hv : e.stream.writer.verifyChunk e.stream.state data = .ok (JsonWriter.isAscii data, .json w) := by
          simp only [Encoder.stream, hc, libraryWriter]
        rw [hv]
        cases JsonWriter.isAscii data
        · simp only [Bool.not_false, if_true, Except.map, Encoder.stream, hc, ha]
        · dsimp only
          simp only [Bool.not_true, Bool.false_eq_true, if_false]
          have hk : (if e.stream.flags &&& 2 ≠ 0 then e.stream.writer.addChecksum (.json w) (computeAdler32 data) else .ok (.json w))
              = .ok (.json w) := by
            split <;> rfl
          rw [hk]
          dsimp only
          have he : e.stream.engine.encode e.stream.lookForTargetMatches data = e.engine.encode e.lookForTargetMatches data := rfl
          rw [he]
          cases e.engine.encode e.lookForTargetMatches data with
          | error f => rfl
          | ok calls =>
            dsimp only
            have hw : e.stream.writer = libraryWriter := rfl
            rw [hw, libraryWriter_json]
            rfl

theorem Encoder.stream_calls (cs : List EncoderCall) : ∀ (e : Encoder),
    e.stream.calls cs = (e.calls cs).map fun r => (r.1, r.2.stream) := by
  induction cs with
  | nil => intro e; rfl
  | cons c cs ih =>
    intro e
    rw [StreamEncoder.calls, Encoder.calls, Encoder.stream_call]
    cases e.call c with
    | error f => rfl
    | ok r =>
      obtain ⟨r, e1⟩ := r
      simp only [Except.map]
      rw [ih]
      cases e1.calls cs with
      | error f => rfl
      | ok r => rfl

/-! ## Writers that do not go wrong -/

theorem Spec.Total.calls {σ : Type} {w : WriterInterface σ} (t : Total w) (cs : List CoderCall) :
    ∀ s, ∃ r, w.calls s cs = .ok r := by
  induction cs with
  | nil => intro s; exact ⟨_, rfl⟩
  | cons c cs ih =>
    intro s
    have hc : ∃ r, w.call s c = .ok r := by
      cases c with
      | add bs => obtain ⟨r, h⟩ := t.add s bs; exact ⟨_, by rw [WriterInterface.call, h]; rfl⟩
      | copy x n => obtain ⟨r, h⟩ := t.copy s x n; exact ⟨_, by rw [WriterInterface.call, h]; rfl⟩
      | run n b => obtain ⟨r, h⟩ := t.run s n b; exact ⟨_, by rw [WriterInterface.call, h]; rfl⟩
      | output => exact t.output s
    obtain ⟨⟨out, s1⟩, h1⟩ := hc
    obtain ⟨r, h2⟩ := ih s1
    exact ⟨_, by rw [WriterInterface.calls, h1]; dsimp only; rw [h2]; rfl⟩

theorem StreamEncoder.call_total {σ : Type} {e : StreamEncoder σ} (t : Total e.writer) {dict : Bytes}
    (he : Engine.init dict = .ok (some e.engine)) {c : EncoderCall}
    (hs : ∀ data, c = .chunk data → dict.length + data.length < 2 ^ 31) :
    ∃ r e', e.call c = .ok (r, e') ∧ e'.writer = e.writer ∧ e'.engine = e.engine := by
  cases c with
  | start =>
    obtain ⟨⟨b1, s1⟩, h1⟩ := t.init e.state e.engine.dictionary.length
    simp only [call, start, h1]
    cases b1
    · exact ⟨_, _, rfl, rfl, rfl⟩
    · dsimp only
      obtain ⟨⟨b2, s2⟩, h2⟩ := t.verifyDictionary s1 e.engine.dictionary
      rw [h2]
      cases b2
      · exact ⟨_, _, rfl, rfl, rfl⟩
      · obtain ⟨⟨b3, s3⟩, h3⟩ := t.writeHeader s2 e.flags
        dsimp only
        rw [h3]
        exact ⟨_, _, rfl, rfl, rfl⟩
  | finish =>
    simp only [call, finish]
    split
    · exact ⟨_, _, rfl, rfl, rfl⟩
    · obtain ⟨⟨b3, s3⟩, h3⟩ := t.finishEncoding e.state
      rw [h3]
      exact ⟨_, _, rfl, rfl, rfl⟩
  | chunk data =>
    have hl := hs data rfl
    simp only [call, chunk]
    split
    · exact ⟨_, _, rfl, rfl, rfl⟩
    · obtain ⟨⟨b1, s1⟩, h1⟩ := t.verifyChunk e.state data
      rw [h1]
      cases b1
      · exact ⟨_, _, rfl, rfl, rfl⟩
      · dsimp only
        have hck : ∃ s2, (if e.flags &&& 2 ≠ 0 then e.writer.addChecksum s1 (computeAdler32 data) else .ok s1) = .ok s2 := by
          split
          · exact t.addChecksum _ _
          · exact ⟨_, rfl⟩
        obtain ⟨s2, h2⟩ := hck
        rw [h2]
        dsimp only
        have hen : ∃ calls, e.engine.encode e.lookForTargetMatches data = .ok calls := by
          by_cases hne : data = []
          · subst hne
            obtain ⟨eng, hashed, i1, i2, _⟩ := Engine.init_ok (dict := dict) (by simp only [int32Max]; omega)
            rw [he] at i1
            injection i1 with i1
            injection i1 with i1
            exact ⟨[], by rw [i1, i2]; rfl⟩
          · obtain ⟨eng, ops, i1, _, i3, _⟩ := Engine.encode_whole (dict := dict) (target := data)
              (matching := e.lookForTargetMatches) (by simp only [int32Max]; omega) hne
            rw [he] at i1
            injection i1 with i1
            injection i1 with i1
            exact ⟨_, by rw [i1, i3]⟩
        obtain ⟨calls, h3⟩ := hen
        rw [h3]
        dsimp only
        obtain ⟨⟨out, s4⟩, h4⟩ := t.calls calls s2
        rw [h4]
        exact ⟨_, _, rfl, rfl, rfl⟩

theorem StreamEncoder.calls_total {σ : Type} {dict : Bytes} (cs : List EncoderCall) : ∀ {e : StreamEncoder σ}, Total e.writer →
    Engine.init dict = .ok (some e.engine) → EachChunk (fun data => dict.length + data.length < 2 ^ 31) cs →
    ∃ r, e.calls cs = .ok r := by
  induction cs with
  | nil => intro e _ _ _; exact ⟨_, rfl⟩
  | cons c cs ih =>
    intro e t he hs
    obtain ⟨r, e1, h1, h2, h3⟩ := call_total t he (c := c) (fun data hc => hs data (by rw [hc]; exact List.mem_cons_self ..))
    obtain ⟨r2, h4⟩ := ih (e := e1) (by rw [h2]; exact t) (by rw [h3]; exact he) (fun data hm => hs data (List.mem_cons_of_mem _ hm))
    exact ⟨_, by rw [calls, h1]; dsimp only; rw [h4]⟩

theorem recording_total {σ : Type} {w : WriterInterface σ} (t : Total w) : Total (recording w) := by
  constructor
  · intro s n; obtain ⟨r, h⟩ := t.init s.1 n; exact ⟨_, by simp only [recording, h]; rfl⟩
  · intro s n; obtain ⟨r, h⟩ := t.writeHeader s.1 n; exact ⟨_, by simp only [recording, h]; rfl⟩
  · intro s n; obtain ⟨r, h⟩ := t.add s.1 n; exact ⟨_, by simp only [recording, h]; rfl⟩
  · intro s n m; obtain ⟨r, h⟩ := t.copy s.1 n m; exact ⟨_, by simp only [recording, h]; rfl⟩
  · intro s n m; obtain ⟨r, h⟩ := t.run s.1 n m; exact ⟨_, by simp only [recording, h]; rfl⟩
  · intro s n; obtain ⟨r, h⟩ := t.addChecksum s.1 n; exact ⟨_, by simp only [recording, h]; rfl⟩
  · intro s; obtain ⟨r, h⟩ := t.output s.1; exact ⟨_, by simp only [recording, h]; rfl⟩
  · intro s; obtain ⟨r, h⟩ := t.finishEncoding s.1; exact ⟨_, by simp only [recording, h]; rfl⟩
  · intro s n; obtain ⟨r, h⟩ := t.verifyDictionary s.1 n; exact ⟨_, by simp only [recording, h]; rfl⟩
  · intro s n; obtain ⟨r, h⟩ := t.verifyChunk s.1 n; exact ⟨_, by simp only [recording, h]; rfl⟩

/-! ## Statistics -/

theorem bytesDescribed_append (a b : List Event) : bytesDescribed (a ++ b) = bytesDescribed a + bytesDescribed b := by
  simp [bytesDescribed, List.sum_append]

theorem bytesDescribed_ops (ops : List Op) : bytesDescribed (ops.map Op.event) = sizes ops := by
  induction ops with
  | nil => rfl
  | cons o ops ih =>
    rw [List.map_cons, sizes, List.map_cons, List.sum_cons]
    rw [sizes] at ih
    rw [← ih]
    cases o <;> rfl

theorem Spec.Answered.bytes {dict : Bytes} {flags : Nat} {matching b b' : Bool} {c : EncoderCall} {es : List Event} {r : EncoderReply}
    (h : Answered dict flags matching b c es r b') : bytesDescribed es = bytesAccepted [c] [r] := by
  cases h with
  | emptyChunk =>
    split <;> rfl
  | chunk hne hd =>
    rename_i data ops out
    have hl := execOps_length ops dict
    rw [hd.exec, List.length_append] at hl
    have hck : bytesDescribed (if flags &&& 2 ≠ 0 then [Event.addChecksum (adlerOf data)] else []) = 0 := by
      split <;> rfl
    rw [bytesDescribed_append, bytesDescribed_append, bytesDescribed_append, bytesDescribed_ops, hck]
    have h1 : bytesDescribed [.verifyChunk data true] = 0 := rfl
    have h2 : bytesDescribed [.output out] = 0 := rfl
    have h3 : bytesAccepted [.chunk data] [⟨true, out⟩] = data.length := by simp [bytesAccepted]
    omega
  | _ => rfl

theorem Spec.WriterSession.bytes {dict : Bytes} {flags : Nat} {matching b : Bool} {cs : List EncoderCall} {es : List Event}
    {rs : List EncoderReply} (h : WriterSession dict flags matching b cs es rs) : bytesDescribed es = bytesAccepted cs rs := by
  induction h with
  | nil => rfl
  | cons ha _ ih =>
    rw [bytesDescribed_append, ha.bytes, ih]
    simp [bytesAccepted]

end Vcd
