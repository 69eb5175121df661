import Verif.Proof.ReleaseUse
import Verif.Proof.ReleaseHuge

/-!
# A release build of the encoder, in whatever order the calls come
-/

namespace Vcd
open Spec

namespace Release

theorem init_first {dict : Bytes} {engine : Engine} (he : Engine.init dict = .ok (some engine)) :
    initCall ⟨dict, none⟩ = .ok (true, engine) := ok_of_agrees (initCall_agrees _) (Engine.initCall_first he).1

theorem init_again {engine : Engine} (h : engine.hashed.isSome = true) : initCall engine = .ok (false, engine) := by
  unfold initCall
  cases hh : engine.hashed with
  | none => rw [hh] at h; cases h
  | some _ => rfl

theorem call_ok {e e' : Encoder} {c : EncoderCall} {r : EncoderReply} (h : e.call c = .ok (r, e')) :
    pairCall e (.encoder c) = .ok (r, e') := ok_of_agrees (pairCall_agrees e (.encoder c)) h

end Release

namespace Encoder

theorem release_any {dict : Bytes} {flags : Nat} {matching : Bool} {m : InstructionMap}
    (u : Writer.Usable defaultCoding 8 m) {engine : Engine} (he : Engine.init dict = .ok (some engine)) (cs : List PairCall) :
    ∀ (inited : Bool) (e : Encoder), Inv (Encoder.new (engineWhen dict engine inited) flags matching) m e →
      EachPairChunk (Small dict) cs →
      Release.pairCalls e cs =
        (releaseProtocol (Writer.header flags) (window (Encoder.new engine flags matching) m) inited e.allowed cs, none) := by
  obtain ⟨i1, i2, i3⟩ := Engine.initCall_first he
  induction cs with
  | nil => intro inited e _ _; cases inited <;> cases e.allowed <;> rfl
  | cons c cs ih =>
    intro inited e h hs
    have hs' : EachPairChunk (Small dict) cs := fun data hm => hs data (List.mem_cons_of_mem _ hm)
    cases c with
    | init =>
      have hen : e.engine = engineWhen dict engine inited := h.engine
      cases inited with
      | true =>
        have : Release.pairCall e .init = .ok (⟨false, []⟩, e) := by
          simp only [Release.pairCall, hen, engineWhen, if_true, Release.init_again i2]
          rw [show engine = e.engine by rw [hen]; rfl]
        have k := ih true e h hs'
        simp only [Release.pairCalls, this, releaseProtocol, k, Bool.not_true]
      | false =>
        have : Release.pairCall e .init = .ok (⟨true, []⟩, { e with engine }) := by
          simp only [Release.pairCall, hen, engineWhen, Bool.false_eq_true, if_false, Release.init_first he]
        have k := ih true { e with engine } (h.inited (engine := engine) (by simp [Encoder.new, engineWhen, i3])) hs'
        simp only [Release.pairCalls, this, releaseProtocol, k, Bool.not_false]
    | encoder c =>
      cases c with
      | start =>
        obtain ⟨e1, k1, k2, k3⟩ := start_ok u h
        have k := ih inited e1 k2 hs'
        rw [k3] at k
        simp only [Release.pairCalls, Release.call_ok k1, releaseProtocol, k]
        rfl
      | finish =>
        obtain ⟨e1, k1, k2, k3⟩ := finish_ok h
        have k := ih inited e1 k2 hs'
        rw [k3] at k
        simp only [Release.pairCalls, Release.call_ok k1, releaseProtocol, k]
      | chunk data =>
        cases ha : e.allowed with
        | false =>
          have k := ih inited e h hs'
          rw [ha] at k
          simp only [Release.pairCalls, Release.call_ok (chunk_refused ha data), releaseProtocol, k]
          rfl
        | true =>
          cases inited with
          | true =>
            obtain ⟨e1, k1, k2, k3⟩ := chunk_ok u (e0 := Encoder.new engine flags matching) he i3 h ha
              (hs data (List.mem_cons_self ..))
            have k := ih true e1 k2 hs'
            rw [k3] at k
            simp only [Release.pairCalls, Release.call_ok k1, releaseProtocol, k]
            rfl
          | false =>
            have hen : e.engine = ⟨dict, none⟩ := h.engine
            obtain ⟨h1, h2, h3, w, h4, h5, h6, h7⟩ := h
            have hr := h7.resolve_left (fun h => by rw [ha] at h; cases h.2)
            obtain ⟨j1, j2⟩ := chunkWriter_ready hr h5 h6 data
            have hf : e.flags = flags := h2
            have : Release.pairCall e (.encoder (.chunk data)) =
                .ok (⟨true, []⟩, { e with coder := .binary (chunkWriter (Encoder.new (engineWhen dict engine false) flags matching) m data) }) := by
              have j : (if e.flags &&& 2 ≠ 0 then w.addChecksum (computeAdler32 data) else w) =
                  chunkWriter (Encoder.new (engineWhen dict engine false) flags matching) m data := by rw [hf]; exact j1
              simp only [Release.pairCall, Release.chunk, ha, h4, Release.engineEncode, hen, Release.writerCalls, Except.map, j,
                Bool.not_true, Bool.false_eq_true, if_false]
            have k := ih false
              { e with coder := .binary (chunkWriter (Encoder.new (engineWhen dict engine false) flags matching) m data) }
              ⟨h1, h2, h3, _, rfl, rfl, fun h0 => by simp [chunkWriter, h0], Or.inr j2⟩ hs'
            simp only [Release.pairCalls, this, releaseProtocol]
            rw [k]
            simp only [ha]
            rfl

theorem release_any_json {dict : Bytes} (hdict : dict.length < 2 ^ 31) {matching : Bool} {engine : Engine}
    (he : Engine.init dict = .ok (some engine)) (cs : List PairCall) :
    ∀ (inited : Bool) (e : Encoder), e.engine = engineWhen dict engine inited → e.lookForTargetMatches = matching →
      (∃ w, e.coder = .json w) → EachPairChunk (fun data => dict.length + data.length < 2 ^ 31) cs →
      (Release.pairCalls e cs).2 = none := by
  obtain ⟨i1, i2, i3⟩ := Engine.initCall_first he
  induction cs with
  | nil => intro inited e _ _ _ _; rfl
  | cons c cs ih =>
    rintro inited e hen hm ⟨w, hw⟩ hs
    have hs' : EachPairChunk (fun data => dict.length + data.length < 2 ^ 31) cs :=
      fun data hm => hs data (List.mem_cons_of_mem _ hm)
    have next : ∀ {c : PairCall} {r : EncoderReply} {e' : Encoder} (i : Bool), Release.pairCall e c = .ok (r, e') →
        e'.engine = engineWhen dict engine i → e'.lookForTargetMatches = matching → (∃ w, e'.coder = .json w) →
        (Release.pairCalls e (c :: cs)).2 = none := by
      intro c r e' i hc h1 h2 h3
      simp only [Release.pairCalls, hc]
      exact ih i e' h1 h2 h3 hs'
    cases c with
    | init =>
      cases inited with
      | true =>
        refine next (r := ⟨false, []⟩) (e' := { e with engine }) true ?_ rfl hm ⟨w, hw⟩
        simp only [Release.pairCall, hen, engineWhen, if_true, Release.init_again i2]
      | false =>
        refine next (r := ⟨true, []⟩) (e' := { e with engine }) true ?_ rfl hm ⟨w, hw⟩
        simp only [Release.pairCall, hen, engineWhen, Bool.false_eq_true, if_false, Release.init_first he]
    | encoder c =>
      cases c with
      | start =>
        by_cases hasc : JsonWriter.isAscii e.engine.dictionary = true
        · refine next (r := ⟨true, []⟩) (e' := { e with coder := .json w.init, allowed := true }) inited ?_ hen hm ⟨_, rfl⟩
          simp [Release.pairCall, Release.start, start, hw, hasc, Except.map]
        · refine next (r := ⟨false, []⟩) (e' := { e with coder := .json w.init }) inited ?_ hen hm ⟨_, rfl⟩
          simp [Release.pairCall, Release.start, start, hw, hasc, Except.map]
      | finish =>
        cases ha : e.allowed
        · exact next (r := ⟨false, []⟩) (e' := e) inited (by simp [Release.pairCall, finish, ha]) hen hm ⟨w, hw⟩
        · exact next (r := ⟨true, w.finish⟩) (e' := { e with allowed := false }) inited (by simp [Release.pairCall, finish, ha, hw]) hen hm
            ⟨w, hw⟩
      | chunk data =>
        cases ha : e.allowed with
        | false => exact next inited (Release.call_ok (chunk_refused ha data)) hen hm ⟨w, hw⟩
        | true =>
          cases hasc : JsonWriter.isAscii data with
          | false =>
            refine next (r := ⟨false, []⟩) (e' := e) inited ?_ hen hm ⟨w, hw⟩
            simp [Release.pairCall, Release.chunk, ha, hw, hasc, Except.map]
          | true =>
            cases inited with
            | false =>
              refine next (r := ⟨true, (w.calls []).1⟩) (e' := { e with coder := .json (w.calls []).2 }) false ?_ hen hm ⟨_, rfl⟩
              simp [Release.pairCall, Release.chunk, ha, hw, hasc, Release.engineEncode, hen, engineWhen, Except.map]
            | true =>
              have hl := hs data (List.mem_cons_self ..)
              have : ∃ calls, e.engine.encode e.lookForTargetMatches data = .ok calls := by
                by_cases hne : data = []
                · obtain ⟨e1, k1, k2⟩ := Props.engine_ignores_empty dict matching hdict
                  rw [he] at k1
                  injection k1 with k1
                  injection k1 with k1
                  subst k1
                  exact ⟨[], by rw [hen, hm, hne]; exact k2⟩
                · obtain ⟨e1, ops, k1, k2, k3, k4⟩ := Engine.encode_whole (dict := dict) (target := data)
                    (matching := matching) (by simp only [int32Max]; omega) hne
                  rw [he] at k1
                  injection k1 with k1
                  injection k1 with k1
                  subst k1
                  exact ⟨_, by rw [hen, hm]; exact k3⟩
              obtain ⟨calls, hc⟩ := this
              have : e.call (.chunk data) = .ok (⟨true, (w.calls calls).1⟩, { e with coder := .json (w.calls calls).2 }) := by
                simp [call, chunk, ha, hw, hasc, hc, Except.map]
              exact next true (Release.call_ok this) hen hm ⟨_, rfl⟩

end Encoder
end Vcd
