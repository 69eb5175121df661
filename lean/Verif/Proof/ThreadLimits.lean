import Verif.Proof.Json
import Verif.Spec.Threads

/-!
# Programs whose dictionaries and chunks are not huge do not fail when they run alone
-/

namespace Vcd
open Spec Threads

/-- A dictionary that has been made from less than 2^30 bytes. -/
def Engine.Made (e : Engine) : Prop :=
  ∃ dict : Bytes, dict.length < 2 ^ 30 ∧ Engine.init dict = .ok (some e) ∧ e.dictionary = dict

/-- An encoder whose dictionary is such a dictionary, between calls. -/
def Encoder.Good (m : InstructionMap) (e : Encoder) : Prop :=
  (∃ e0 : Encoder, e0.engine.Made ∧ Encoder.Inv e0 m e) ∨ (e.engine.Made ∧ ∃ w, e.coder = .json w)

theorem Encoder.Good.call {m : InstructionMap} (u : Writer.Usable defaultCoding 8 m) {e : Encoder} (h : e.Good m)
    {c : EncoderCall} (hc : ∀ data, c = .chunk data → data.length < 2 ^ 30) :
    ∃ r e', e.call c = .ok (r, e') ∧ e'.Good m := by
  rcases h with ⟨e0, hm, hi⟩ | ⟨hm, w, hw⟩
  · obtain ⟨dict, h1, h2, h3⟩ := id hm
    cases c with
    | start =>
      obtain ⟨e', k1, k2, _⟩ := Encoder.start_ok u hi
      exact ⟨_, e', k1, Or.inl ⟨e0, hm, k2⟩⟩
    | finish =>
      obtain ⟨e', k1, k2, _⟩ := Encoder.finish_ok hi
      exact ⟨_, e', k1, Or.inl ⟨e0, hm, k2⟩⟩
    | chunk data =>
      cases ha : e.allowed
      · exact ⟨_, e, Encoder.chunk_refused ha data, Or.inl ⟨e0, hm, hi⟩⟩
      · have := hc data rfl
        obtain ⟨e', k1, k2, _⟩ := Encoder.chunk_ok u h2 h3 hi ha (data := data) ⟨by omega, by omega⟩
        exact ⟨_, e', k1, Or.inl ⟨e0, hm, k2⟩⟩
  · obtain ⟨dict, h1, h2, h3⟩ := id hm
    cases c with
    | start =>
      simp only [Encoder.call, Encoder.start, hw]
      split
      · exact ⟨_, _, rfl, Or.inr ⟨hm, _, rfl⟩⟩
      · exact ⟨_, _, rfl, Or.inr ⟨hm, _, rfl⟩⟩
    | finish =>
      simp only [Encoder.call, Encoder.finish, hw]
      split
      · exact ⟨_, _, rfl, Or.inr ⟨hm, w, hw⟩⟩
      · exact ⟨_, _, rfl, Or.inr ⟨hm, w, rfl⟩⟩
    | chunk data =>
      have hd := hc data rfl
      have : ∃ calls, e.engine.encode e.lookForTargetMatches data = .ok calls := by
        by_cases hne : data = []
        · subst hne
          obtain ⟨e1, k1, k2⟩ := Props.engine_ignores_empty dict e.lookForTargetMatches (by omega)
          rw [h2] at k1
          cases k1
          exact ⟨_, k2⟩
        · obtain ⟨e1, ops, k1, _, k3, _⟩ := Engine.encode_whole (dict := dict) (target := data)
            (matching := e.lookForTargetMatches) (by simp only [int32Max]; omega) hne
          rw [h2] at k1
          cases k1
          exact ⟨_, k3⟩
      obtain ⟨calls, hcalls⟩ := this
      simp only [Encoder.call, Encoder.chunk, hw, hcalls]
      split
      · exact ⟨_, _, rfl, Or.inr ⟨hm, w, hw⟩⟩
      · split
        · exact ⟨_, _, rfl, Or.inr ⟨hm, w, hw⟩⟩
        · exact ⟨_, _, rfl, Or.inr ⟨hm, _, rfl⟩⟩

/-- The objects of a thread. -/
structure Spec.Own.Good (m : InstructionMap) (s : Own) : Prop where
  engine : ∀ e, s.engine = some e → e.Made
  encoder : ∀ e, s.encoder = some e → e.Good m

theorem Spec.Own.Good.command {m : InstructionMap} (u : Writer.Usable defaultCoding 8 m) {s : Own} (h : s.Good m)
    {c : Command} (hd : ∀ contents, c = .dictionary contents → contents.length < 2 ^ 30)
    (hc : ∀ data, c = .call (.chunk data) → data.length < 2 ^ 30) :
    ∃ rs s', s.command c = .ok (rs, s') ∧ s'.Good m := by
  cases c with
  | dictionary contents =>
    have := hd contents rfl
    obtain ⟨e, hashed, h1, h2, _⟩ := Engine.init_ok (dict := contents) (by simp only [int32Max]; omega)
    refine ⟨[.inited true], { s with engine := some e }, by simp only [Own.command, h1], fun e' he => ?_, h.encoder⟩
    cases he
    exact ⟨contents, this, h1, by rw [h2]⟩
  | encoder flags matching =>
    refine ⟨_, _, rfl, h.engine, fun e he => ?_⟩
    cases hs : s.engine with
    | none => rw [hs] at he; cases he
    | some engine =>
      rw [hs] at he
      cases he
      by_cases hb : flags &&& 4 = 0
      · exact Or.inl ⟨Encoder.new engine flags matching, h.engine engine hs, Encoder.new_inv hb m⟩
      · refine Or.inr ⟨h.engine engine hs, {}, ?_⟩
        simp [Encoder.new, createWriter, hb]
  | call c =>
    cases hs : s.encoder with
    | none => exact ⟨[], s, by simp only [Own.command, hs], h⟩
    | some e =>
      obtain ⟨r, e', h1, h2⟩ := (h.encoder e hs).call u (c := c) fun data he => hc data (by rw [he])
      refine ⟨[.called r], { s with encoder := some e' }, by simp only [Own.command, hs, h1], h.engine, fun e2 he => ?_⟩
      cases he
      exact h2

theorem Spec.Own.Good.commands {m : InstructionMap} (u : Writer.Usable defaultCoding 8 m) (cs : List Command) :
    ∀ {s : Own}, s.Good m → (∀ contents, .dictionary contents ∈ cs → contents.length < 2 ^ 30) →
      (∀ data, .call (.chunk data) ∈ cs → data.length < 2 ^ 30) → ∃ rs s', s.commands cs = .ok (rs, s') ∧ s'.Good m := by
  induction cs with
  | nil => intro s h _ _; exact ⟨_, _, rfl, h⟩
  | cons c cs ih =>
    intro s h hd hc
    obtain ⟨rs, s1, h1, h2⟩ := h.command u (c := c) (fun x e => hd x (by rw [e]; simp)) (fun x e => hc x (by rw [e]; simp))
    obtain ⟨rs', s2, k1, k2⟩ := ih h2 (fun x e => hd x (List.mem_cons_of_mem _ e)) (fun x e => hc x (List.mem_cons_of_mem _ e))
    exact ⟨rs ++ rs', s2, by simp only [Own.commands, h1, k1], k2⟩

end Vcd
