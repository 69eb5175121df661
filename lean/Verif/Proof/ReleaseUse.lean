import Verif.Proof.Release
import Verif.Proof.Json
import Verif.Spec.Builds

/-!
# When a debug build of the encoder exits
-/

namespace Vcd
open Spec

/-- The engine after construction and after `Init`. -/
def engineWhen (dict : Bytes) (engine : Engine) (inited : Bool) : Engine := if inited then engine else ⟨dict, none⟩

theorem Engine.initCall_first {dict : Bytes} {engine : Engine} (he : Engine.init dict = .ok (some engine)) :
    (⟨dict, none⟩ : Engine).initCall = .ok (true, engine) ∧ engine.hashed.isSome = true ∧ engine.dictionary = dict := by
  unfold Engine.init at he
  unfold Engine.initCall
  rcases hc : BlockHash.create dict 0 true with f | _ | bh
  · rw [hc] at he; cases he
  · rw [hc] at he; cases he
  · rw [hc] at he
    simp only [Except.map, Option.map, Except.ok.injEq, Option.some.injEq] at he
    subst he
    exact ⟨rfl, rfl, rfl⟩

theorem Engine.initCall_again {engine : Engine} (h : engine.hashed.isSome = true) : engine.initCall = .error .assertion := by
  unfold Engine.initCall
  cases hh : engine.hashed with
  | none => rw [hh] at h; cases h
  | some _ => rfl

theorem Engine.encode_uninit {engine : Engine} (h : engine.hashed = none) (look : Bool) (data : Bytes) :
    engine.encode look data = .error .assertion := by
  rw [Engine.encode, h]

namespace Encoder

/-- The invariant survives `Init`. -/
theorem Inv.inited {e e0 : Encoder} {m : InstructionMap} (h : Inv e0 m e) {engine : Engine}
    (hd : engine.dictionary = e0.engine.dictionary) : Inv { e0 with engine } m { e with engine } := by
  obtain ⟨h1, h2, h3, w, h4, h5, h6, h7⟩ := h
  exact ⟨rfl, h2, h3, w, h4, h5, h6, by simpa only [hd] using h7⟩

theorem pair_exits {dict : Bytes} {flags : Nat} {matching : Bool} {m : InstructionMap}
    (u : Writer.Usable defaultCoding 8 m) {engine : Engine} (he : Engine.init dict = .ok (some engine)) (cs : List PairCall) :
    ∀ (inited : Bool) (e : Encoder), Inv (Encoder.new (engineWhen dict engine inited) flags matching) m e →
      EachPairChunk (Small dict) cs →
      (e.pairCalls cs).2 = if misused true (fun _ => true) inited e.allowed cs then some .assertion else none := by
  obtain ⟨i1, i2, i3⟩ := Engine.initCall_first he
  induction cs with
  | nil => intro inited e _ _; rfl
  | cons c cs ih =>
    intro inited e h hs
    have hs' : EachPairChunk (Small dict) cs := fun data hm => hs data (List.mem_cons_of_mem _ hm)
    cases c with
    | init =>
      have hen : e.engine = engineWhen dict engine inited := h.engine
      cases inited with
      | true =>
        have : e.pairCall .init = .error .assertion := by
          simp only [pairCall, hen, engineWhen, if_true, Engine.initCall_again i2]
        simp [pairCalls, this, misused]
      | false =>
        have : e.pairCall .init = .ok (⟨true, []⟩, { e with engine }) := by
          simp only [pairCall, hen, engineWhen, Bool.false_eq_true, if_false, i1]
        have k := ih true { e with engine } (h.inited (engine := engine) (by simp [Encoder.new, engineWhen, i3])) hs'
        simpa [pairCalls, this, misused] using k
    | encoder c =>
      cases c with
      | start =>
        obtain ⟨e1, k1, k2, k3⟩ := start_ok u h
        have k := ih inited e1 k2 hs'
        rw [k3] at k
        simpa [pairCalls, pairCall, k1, misused] using k
      | finish =>
        obtain ⟨e1, k1, k2, k3⟩ := finish_ok h
        have k := ih inited e1 k2 hs'
        rw [k3] at k
        simp only [pairCalls, pairCall, k1, misused]
        exact k
      | chunk data =>
        cases ha : e.allowed with
        | false =>
          have k := ih inited e h hs'
          rw [ha] at k
          simpa [pairCalls, pairCall, chunk_refused ha data, misused] using k
        | true =>
          cases inited with
          | true =>
            obtain ⟨e1, k1, k2, k3⟩ := chunk_ok u (e0 := Encoder.new engine flags matching) he i3 h ha
              (hs data (List.mem_cons_self ..))
            have k := ih true e1 k2 hs'
            rw [k3] at k
            simpa [pairCalls, pairCall, k1, misused] using k
          | false =>
            have hen : e.engine = ⟨dict, none⟩ := h.engine
            obtain ⟨w, h4, _⟩ := h.coder
            have : e.call (.chunk data) = .error .assertion := by
              simp [call, chunk, ha, h4, Engine.encode_uninit (engine := e.engine) (by rw [hen]), Except.map]
            simp [pairCalls, pairCall, this, misused]

theorem pair_exits_json {dict : Bytes} (hdict : dict.length < 2 ^ 31) {matching : Bool} {engine : Engine}
    (he : Engine.init dict = .ok (some engine)) (cs : List PairCall) :
    ∀ (inited : Bool) (e : Encoder), e.engine = engineWhen dict engine inited → e.lookForTargetMatches = matching →
      (∃ w, e.coder = .json w) → EachPairChunk (fun data => dict.length + data.length < 2 ^ 31) cs →
      (e.pairCalls cs).2 = if misused (JsonWriter.isAscii dict) JsonWriter.isAscii inited e.allowed cs
        then some .assertion else none := by
  obtain ⟨i1, i2, i3⟩ := Engine.initCall_first he
  induction cs with
  | nil => intro inited e _ _ _ _; rfl
  | cons c cs ih =>
    rintro inited e hen hm ⟨w, hw⟩ hs
    have hs' : EachPairChunk (fun data => dict.length + data.length < 2 ^ 31) cs :=
      fun data hm => hs data (List.mem_cons_of_mem _ hm)
    cases c with
    | init =>
      cases inited with
      | true =>
        have : e.pairCall .init = .error .assertion := by
          simp only [pairCall, hen, engineWhen, if_true, Engine.initCall_again i2]
        simp [pairCalls, this, misused]
      | false =>
        have : e.pairCall .init = .ok (⟨true, []⟩, { e with engine }) := by
          simp only [pairCall, hen, engineWhen, Bool.false_eq_true, if_false, i1]
        have k := ih true { e with engine } rfl hm ⟨w, hw⟩ hs'
        simpa [pairCalls, this, misused] using k
    | encoder c =>
      have hed : e.engine.dictionary = dict := by
        rw [hen, engineWhen]; split
        · exact i3
        · rfl
      cases c with
      | start =>
        cases hasc : JsonWriter.isAscii dict with
        | true =>
          have : e.call .start = .ok (⟨true, []⟩, { e with coder := .json w.init, allowed := true }) := by
            simp [call, start, hw, hed, hasc, Except.map]
          have k := ih inited { e with coder := .json w.init, allowed := true } hen hm ⟨_, rfl⟩ hs'
          rw [hasc] at k
          simpa [pairCalls, pairCall, this, misused] using k
        | false =>
          have : e.call .start = .ok (⟨false, []⟩, { e with coder := .json w.init }) := by
            simp [call, start, hw, hed, hasc, Except.map]
          have k := ih inited { e with coder := .json w.init } hen hm ⟨_, rfl⟩ hs'
          rw [hasc] at k
          simpa [pairCalls, pairCall, this, misused] using k
      | finish =>
        have : ∃ r e', e.call .finish = .ok (r, e') ∧ e'.engine = e.engine ∧ e'.lookForTargetMatches = matching ∧
            e'.coder = e.coder ∧ e'.allowed = false := by
          cases ha : e.allowed
          · exact ⟨⟨false, []⟩, e, by simp [call, finish, ha], rfl, hm, rfl, ha⟩
          · exact ⟨⟨true, w.finish⟩, { e with allowed := false }, by simp [call, finish, ha, hw], rfl, hm, rfl, rfl⟩
        obtain ⟨r, e', k1, k2, k3, k4, k5⟩ := this
        have k := ih inited e' (k2.trans hen) k3 ⟨w, k4.trans hw⟩ hs'
        rw [k5] at k
        simp only [pairCalls, pairCall, k1, misused]
        exact k
      | chunk data =>
        cases ha : e.allowed with
        | false =>
          have k := ih inited e hen hm ⟨w, hw⟩ hs'
          rw [ha] at k
          simpa [pairCalls, pairCall, chunk_refused ha data, misused] using k
        | true =>
          cases hasc : JsonWriter.isAscii data with
          | false =>
            have : e.call (.chunk data) = .ok (⟨false, []⟩, e) := by
              simp [call, chunk, ha, hw, hasc, Except.map]
            have k := ih inited e hen hm ⟨w, hw⟩ hs'
            rw [ha] at k
            simpa [pairCalls, pairCall, this, misused, hasc] using k
          | true =>
            cases inited with
            | false =>
              have : e.call (.chunk data) = .error .assertion := by
                simp [call, chunk, ha, hw, hasc, Engine.encode_uninit (engine := e.engine) (by rw [hen]; rfl), Except.map]
              simp [pairCalls, pairCall, this, misused, hasc]
            | true =>
              have hl := hs data (List.mem_cons_self ..)
              have : ∃ calls, e.engine.encode e.lookForTargetMatches data = .ok calls := by
                by_cases hne : data = []
                · obtain ⟨e1, k1, k2⟩ := Props.engine_ignores_empty dict matching hdict
                  rw [he] at k1
                  injection k1 with k1
                  injection k1 with k1
                  subst k1
                  exact ⟨[], by rw [hen, hm, hne]; exact k2⟩
                · obtain ⟨e1, ops, k1, k2, k3, k4⟩ := Engine.encode_whole (dict := dict) (target := data)
                    (matching := matching) (by simp only [int32Max]; omega) hne
                  rw [he] at k1
                  injection k1 with k1
                  injection k1 with k1
                  subst k1
                  exact ⟨_, by rw [hen, hm]; exact k3⟩
              obtain ⟨calls, hc⟩ := this
              have : e.call (.chunk data) = .ok (⟨true, (w.calls calls).1⟩, { e with coder := .json (w.calls calls).2 }) := by
                simp [call, chunk, ha, hw, hasc, hc, Except.map]
              have k := ih true { e with coder := .json (w.calls calls).2 } hen hm ⟨_, rfl⟩ hs'
              simp only [ha] at k
              simpa [pairCalls, pairCall, this, misused, hasc, ha] using k

end Encoder
end Vcd
