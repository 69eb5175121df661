import Verif.Spec.SimpleJson
import Verif.Props.Json

/-!
# C43 for the JSON format
-/

namespace Vcd
open Spec

namespace SimpleEncoder

/-- One `Encode` with a streaming encoder in the JSON format. -/
theorem json_encode {e0 e : Encoder} {dict : Bytes} {fresh used : Bool} (he : Engine.init dict = .ok (some e0.engine))
    (hde : e0.engine.dictionary = dict) (hd : Ascii dict) (hdl : dict.length < 2 ^ 31) (h : Encoder.JInv e0 fresh used e)
    {x : SimpleEncoder} (hx : x.streaming = .ok (some e)) {target : Bytes} (hl : dict.length + target.length < 2 ^ 31) :
    ∃ (r : Bool × Bytes) (used' : Bool) (e' : Encoder) (fresh' : Bool),
      x.encode target = .ok (r.1, r.2, { x with encoder := some e' }) ∧ Encoder.JInv e0 fresh' used' e' ∧
      ∀ cs, jsonReplies (Encoder.jsonItems e0) used (.encode target :: cs) = some r :: jsonReplies (Encoder.jsonItems e0) used' cs := by
  obtain ⟨e1, k1, k2, k3⟩ := Encoder.jstart_ok (by rw [hde]; exact hd) h
  have hall : (List.all target fun x => decide (x < 128)) = JsonWriter.isAscii target := rfl
  simp only [SimpleEncoder.encode, hx, k1, Bool.true_eq_false, if_false, jsonReplies, hall]
  by_cases hasc : JsonWriter.isAscii target = true
  · by_cases hne : target = []
    · subst hne
      obtain ⟨e2, j1, j2, _⟩ := Encoder.jfinish_ok k2
      refine ⟨(true, if used then [0x5D] else []), used, e2, _, ?_, j2, fun cs => by rw [if_pos hasc, if_pos rfl]⟩
      simp only [Encoder.jempty_ok he hdl k2 k3, Bool.true_eq_false, if_false, j1, k3, Bool.true_and, List.nil_append]
    · obtain ⟨e2, j1, j2, j3⟩ := Encoder.jchunk_ok he k2 k3 hl hne hasc
      obtain ⟨e3, i1, i2, _⟩ := Encoder.jfinish_ok j2
      refine ⟨(true, [0x5B] ++ Encoder.jsonItems e0 target ++ [0x5D]), true, e3, _, ?_, i2, fun cs => by rw [if_pos hasc, if_neg hne]⟩
      simp only [j1, Bool.true_eq_false, if_false, i1, j3, Bool.and_self, if_true, List.nil_append]
  · refine ⟨(false, []), used, e1, _, ?_, k2, fun cs => by rw [if_neg hasc]⟩
    simp only [Encoder.jrefused_ok k2 k3 (by simpa using hasc), if_true, List.nil_append]

/-- With a dictionary that is not ASCII. -/
theorem json_refused {e : Encoder} (hd : JsonWriter.isAscii e.engine.dictionary = false) (hc : ∃ w, e.coder = .json w)
    {x : SimpleEncoder} (hx : x.streaming = .ok (some e)) (target : Bytes) :
    ∃ e', x.encode target = .ok (false, [], { x with encoder := some e' }) ∧ e'.engine = e.engine ∧ ∃ w, e'.coder = .json w := by
  obtain ⟨w, hc⟩ := hc
  refine ⟨{ e with coder := .json w.init }, ?_, rfl, w.init, rfl⟩
  have : e.call .start = .ok (⟨false, []⟩, { e with coder := .json w.init }) := by
    simp only [Encoder.call, Encoder.start, hc, hd, Except.map, Bool.false_eq_true, if_false]
  simp only [SimpleEncoder.encode, hx, this, if_true]

end SimpleEncoder

namespace Props

/-- C43 for the JSON format. For every ASCII dictionary and every history of calls of a `VCDiffEncoder` at whose first `Encode` the
JSON format is set: no fault occurs, and each call is answered as `jsonReplies` says. So `Encode` returns `true` exactly if the target is
ASCII. What it then leaves in the output string depends on nothing but the target, if this is not empty: it is what a new
streaming encoder with the settings of the first `Encode` outputs, and it is a JSON array that stands for instructions which rebuild
the target. -/
theorem simple_encoder_json (dict : Bytes) (hdict : dict.length < 2 ^ 31) (hascii : Ascii dict) (cs : List SimpleCall)
    (hj : (firstSettings cs).1 &&& 4 ≠ 0) (hs : ∀ target, .encode target ∈ cs → dict.length + target.length < 2 ^ 31) :
    ∃ items s', ({ dictionary := dict } : SimpleEncoder).calls cs = .ok (jsonReplies items false cs, s') ∧
      ∀ target, target ≠ [] → Ascii target → dict.length + target.length < 2 ^ 31 →
        encode dict (firstSettings cs).1 (firstSettings cs).2 [target] = .ok (some ([0x5B] ++ items target ++ [0x5D])) ∧
        ∃ values ops, JsonArray ([0x5B] ++ items target ++ [0x5D]) values ∧ jsonOps values = some ops ∧
          execOps dict ops = dict ++ target := by
  obtain ⟨engine, hashed, h1, h2, _⟩ := Engine.init_ok (dict := dict) (by simp only [int32Max]; omega)
  have hd : engine.dictionary = dict := by rw [h2]
  have later : ∀ e0 : Encoder, e0.engine = engine → ∀ (cs : List SimpleCall) (x : SimpleEncoder) (e : Encoder) (fresh used : Bool),
      (∀ target, .encode target ∈ cs → dict.length + target.length < 2 ^ 31) → x.encoder = some e → Encoder.JInv e0 fresh used e →
      ∃ s', x.calls cs = .ok (jsonReplies (Encoder.jsonItems e0) used cs, s') := by
    intro e0 hee cs
    induction cs with
    | nil => intro x e fresh used _ _ _; exact ⟨x, rfl⟩
    | cons c cs ih =>
      intro x e fresh used hsm hxe hinv
      have hsm' : ∀ target, .encode target ∈ cs → dict.length + target.length < 2 ^ 31 := fun t ht => hsm t (List.mem_cons_of_mem _ ht)
      cases c with
      | setFormatFlags f =>
        obtain ⟨s', j⟩ := ih { x with flags := f } e fresh used hsm' hxe hinv
        exact ⟨s', by simp only [SimpleEncoder.calls, SimpleEncoder.call, j, Except.map, jsonReplies]⟩
      | setTargetMatching on =>
        obtain ⟨s', j⟩ := ih { x with lookForTargetMatches := on } e fresh used hsm' hxe hinv
        exact ⟨s', by simp only [SimpleEncoder.calls, SimpleEncoder.call, j, Except.map, jsonReplies]⟩
      | encode t =>
        obtain ⟨r, used', e', fresh', k1, k2, k3⟩ := SimpleEncoder.json_encode (by rw [hee]; exact h1) (by rw [hee]; exact hd) hascii hdict
          hinv (x := x) (by simp only [SimpleEncoder.streaming, hxe]) (hsm t (List.mem_cons_self ..))
        obtain ⟨s', j⟩ := ih { x with encoder := some e' } e' fresh' used' hsm' rfl k2
        exact ⟨s', by simp only [SimpleEncoder.calls, SimpleEncoder.call, k1, j, Except.map, k3]⟩
  have before : ∀ (cs : List SimpleCall) (x : SimpleEncoder),
      (settingsFrom x.flags x.lookForTargetMatches cs).1 &&& 4 ≠ 0 →
      (∀ target, .encode target ∈ cs → dict.length + target.length < 2 ^ 31) → x.dictionary = dict → x.encoder = none →
      ∃ s', x.calls cs = .ok (jsonReplies (Encoder.jsonItems (Encoder.new engine (settingsFrom x.flags x.lookForTargetMatches cs).1
        (settingsFrom x.flags x.lookForTargetMatches cs).2)) false cs, s') := by
    intro cs
    induction cs with
    | nil => intro x _ _ _ _; exact ⟨x, rfl⟩
    | cons c cs ih =>
      intro x hf hsm hx hxe
      have hsm' : ∀ target, .encode target ∈ cs → dict.length + target.length < 2 ^ 31 := fun t ht => hsm t (List.mem_cons_of_mem _ ht)
      cases c with
      | setFormatFlags f =>
        obtain ⟨s', j⟩ := ih { x with flags := f } hf hsm' hx hxe
        exact ⟨s', by simp only [SimpleEncoder.calls, SimpleEncoder.call, j, Except.map, jsonReplies, settingsFrom]⟩
      | setTargetMatching on =>
        obtain ⟨s', j⟩ := ih { x with lookForTargetMatches := on } hf hsm' hx hxe
        exact ⟨s', by simp only [SimpleEncoder.calls, SimpleEncoder.call, j, Except.map, jsonReplies, settingsFrom]⟩
      | encode t =>
        simp only [settingsFrom] at hf ⊢
        obtain ⟨r, used', e', fresh', k1, k2, k3⟩ := SimpleEncoder.json_encode
          (e0 := Encoder.new engine x.flags x.lookForTargetMatches) h1 hd hascii hdict (Encoder.new_jinv hf) (x := x)
          (by simp only [SimpleEncoder.streaming, hxe, hx, h1]) (hsm t (List.mem_cons_self ..))
        obtain ⟨s', j⟩ := later (Encoder.new engine x.flags x.lookForTargetMatches) rfl cs { x with encoder := some e' } e' fresh' used'
          hsm' rfl k2
        exact ⟨s', by simp only [SimpleEncoder.calls, SimpleEncoder.call, k1, j, Except.map, k3]⟩
  obtain ⟨s', k⟩ := before cs { dictionary := dict } hj hs rfl rfl
  refine ⟨_, s', k, ?_⟩
  intro target hne ha hl
  have hq : Encoder.new engine (settingsFrom 0 true cs).1 (settingsFrom 0 true cs).2 =
    Encoder.new engine (firstSettings cs).1 (firstSettings cs).2 := rfl
  simp only [hq]
  constructor
  · obtain ⟨e', j⟩ := Encoder.jcalls_ok (e0 := Encoder.new engine (firstSettings cs).1 (firstSettings cs).2) h1 hd hascii hdict
      (Encoder.new_jinv hj) (cs := [.start] ++ [target].map .chunk ++ [.finish]) (by
        intro data hm
        simp at hm
        rw [hm]; exact hl)
    have hall : (List.all target fun x => decide (x < 128)) = true := (isAscii_iff target).2 ha
    have hal : (Encoder.new engine (firstSettings cs).1 (firstSettings cs).2).allowed = false := rfl
    simp only [encode, h1, j, hal]
    simp [jsonProtocol, hall, hne]
  · obtain ⟨ops, _, k2, k3, k4⟩ := Encoder.jsonItems_spec (e0 := Encoder.new engine (firstSettings cs).1 (firstSettings cs).2) h1 hl hne
    have hw := Whole.writable k3 hascii ha
    refine ⟨JsonWriter.opValues ops, ops, ?_, JsonWriter.jsonOps_opValues ops hw, k3.exec⟩
    rw [k4]
    exact .mk (JsonWriter.opsText_ok ops k2 hw)

/-- C43: with a dictionary that is not ASCII, every `Encode` of a `VCDiffEncoder` in the JSON format returns `false` and leaves the output string
empty. -/
theorem simple_encoder_json_refused (dict : Bytes) (hdict : dict.length < 2 ^ 31) (hascii : ¬ Ascii dict) (cs : List SimpleCall)
    (hj : (firstSettings cs).1 &&& 4 ≠ 0) :
    ∃ s', ({ dictionary := dict } : SimpleEncoder).calls cs = .ok (refusals cs, s') := by
  obtain ⟨engine, hashed, h1, h2, _⟩ := Engine.init_ok (dict := dict) (by simp only [int32Max]; omega)
  have hd : engine.dictionary = dict := by rw [h2]
  have hna : JsonWriter.isAscii engine.dictionary = false := by
    rw [hd]
    cases h : JsonWriter.isAscii dict
    · rfl
    · exact absurd ((isAscii_iff _).1 h) hascii
  have later : ∀ (cs : List SimpleCall) (x : SimpleEncoder) (e : Encoder), x.encoder = some e → e.engine = engine →
      (∃ w, e.coder = .json w) → ∃ s', x.calls cs = .ok (refusals cs, s') := by
    intro cs
    induction cs with
    | nil => intro x e _ _ _; exact ⟨x, rfl⟩
    | cons c cs ih =>
      intro x e hxe hee hc
      cases c with
      | setFormatFlags f =>
        obtain ⟨s', j⟩ := ih { x with flags := f } e hxe hee hc
        exact ⟨s', by simp only [SimpleEncoder.calls, SimpleEncoder.call, j, Except.map]; rfl⟩
      | setTargetMatching on =>
        obtain ⟨s', j⟩ := ih { x with lookForTargetMatches := on } e hxe hee hc
        exact ⟨s', by simp only [SimpleEncoder.calls, SimpleEncoder.call, j, Except.map]; rfl⟩
      | encode t =>
        obtain ⟨e', k1, k2, k3⟩ := SimpleEncoder.json_refused (e := e) (by rw [hee]; exact hna) hc (x := x)
          (by simp only [SimpleEncoder.streaming, hxe]) t
        obtain ⟨s', j⟩ := ih { x with encoder := some e' } e' rfl (k2.trans hee) k3
        exact ⟨s', by simp only [SimpleEncoder.calls, SimpleEncoder.call, k1, j, Except.map]; rfl⟩
  have before : ∀ (cs : List SimpleCall) (x : SimpleEncoder),
      (settingsFrom x.flags x.lookForTargetMatches cs).1 &&& 4 ≠ 0 → x.dictionary = dict → x.encoder = none →
      ∃ s', x.calls cs = .ok (refusals cs, s') := by
    intro cs
    induction cs with
    | nil => intro x _ _ _; exact ⟨x, rfl⟩
    | cons c cs ih =>
      intro x hf hx hxe
      cases c with
      | setFormatFlags f =>
        obtain ⟨s', j⟩ := ih { x with flags := f } hf hx hxe
        exact ⟨s', by simp only [SimpleEncoder.calls, SimpleEncoder.call, j, Except.map]; rfl⟩
      | setTargetMatching on =>
        obtain ⟨s', j⟩ := ih { x with lookForTargetMatches := on } hf hx hxe
        exact ⟨s', by simp only [SimpleEncoder.calls, SimpleEncoder.call, j, Except.map]; rfl⟩
      | encode t =>
        simp only [settingsFrom] at hf
        obtain ⟨e', k1, k2, k3⟩ := SimpleEncoder.json_refused (e := Encoder.new engine x.flags x.lookForTargetMatches) hna
          ⟨{}, by simp [Encoder.new, createWriter, hf]⟩ (x := x) (by simp only [SimpleEncoder.streaming, hxe, hx, h1]) t
        obtain ⟨s', j⟩ := later cs { x with encoder := some e' } e' rfl k2 k3
        exact ⟨s', by simp only [SimpleEncoder.calls, SimpleEncoder.call, k1, j, Except.map]; rfl⟩
  exact before cs { dictionary := dict } hj rfl rfl

/-- An instance: the format is changed before the first `Encode`, and again, in vain, after it; a target that is not ASCII is refused, and
does not disturb what follows; the empty target gives a bracket. -/
example : (({ dictionary := [0x61] } : SimpleEncoder).calls [.setFormatFlags 4, .encode [0x22], .setFormatFlags 0, .encode [0xFF],
      .encode [], .encode [0x22]]).toOption.map (·.1) =
    some [none, some (true, [0x5B, 0x22, 0x5C, 0x22, 0x22, 0x5D]), none, some (false, []), some (true, [0x5D]),
      some (true, [0x5B, 0x22, 0x5C, 0x22, 0x22, 0x5D])] ∧
    (firstSettings [.setFormatFlags 4, .encode [0x22], .setFormatFlags 0, .encode [0xFF], .encode [], .encode [0x22]]).1 &&& 4 ≠ 0 := by
  decide +kernel

end Props
end Vcd
