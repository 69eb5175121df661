import Verif.Proof.Json
import Verif.Props.Encoder

/-!
# C32, C33, C34: the JSON format

`flags &&& 4 ≠ 0` says that the format is JSON.
-/

namespace Vcd
open Spec

namespace Props

/-- A text is read as at most one list of values. -/
theorem json_unambiguous {t : Bytes} {vs ws : List JsonValue} (h1 : JsonArray t vs) (h2 : JsonArray t ws) : vs = ws := by
  generalize ht : t = t' at h2
  cases h1 with
  | empty =>
    cases h2 with
    | empty => rfl
    | mk b =>
      obtain ⟨x, r, rfl, hx⟩ := b.nonempty
      simp at ht
  | mk a =>
    cases h2 with
    | empty =>
      obtain ⟨x, r, rfl, hx⟩ := a.nonempty
      simp at ht
    | mk b => exact a.unique b (by simpa using ht)

/-- C34 for the JSON format. For every ASCII dictionary and choice of target matching there is a function
`items` of the chunk alone; whatever calls are made on a new encoder, no fault occurs, and each call is
answered as `jsonProtocol` says. The items of a chunk are values that stand for instructions which rebuild
the chunk from the dictionary. -/
theorem json_protocol (dict : Bytes) (hdict : dict.length < 2 ^ 31) (hascii : Ascii dict) (flags : Nat)
    (hj : flags &&& 4 ≠ 0) (matching : Bool) :
    ∃ engine items, Engine.init dict = .ok (some engine) ∧
      (∀ cs, EachChunk (fun data => dict.length + data.length < 2 ^ 31) cs →
        ∃ e', (Encoder.new engine flags matching).calls cs = .ok (jsonProtocol items false true false cs, e')) ∧
      ∀ data, data ≠ [] → Ascii data → dict.length + data.length < 2 ^ 31 →
        ∃ values ops, JsonItems (items data) values ∧ jsonOps values = some ops ∧ execOps dict ops = dict ++ data ∧
          ∀ pre op post, ops = pre ++ op :: post → Emittable dict.length matching (execOps dict pre).length op := by
  obtain ⟨engine, hashed, h1, h2, _⟩ := Engine.init_ok (dict := dict) (by simp only [int32Max]; omega)
  have hd : engine.dictionary = dict := by rw [h2]
  refine ⟨engine, Encoder.jsonItems (Encoder.new engine flags matching), h1, ?_, ?_⟩
  · intro cs hs
    exact Encoder.jcalls_ok (e0 := Encoder.new engine flags matching) h1 hd hascii hdict (Encoder.new_jinv hj) hs
  · intro data hne ha hl
    obtain ⟨ops, _, k2, k3, k4⟩ := Encoder.jsonItems_spec (e0 := Encoder.new engine flags matching) h1 hl hne
    have hw := Whole.writable k3 hascii ha
    refine ⟨JsonWriter.opValues ops, ops, ?_, JsonWriter.jsonOps_opValues ops hw, k3.exec, k3.emittable⟩
    rw [k4]
    exact JsonWriter.opsText_ok ops k2 hw

/-- C34: with a dictionary that is not ASCII, nothing can be encoded in the JSON format. -/
theorem json_dictionary_refused (dict : Bytes) (hdict : dict.length < 2 ^ 31) (hascii : ¬ Ascii dict) (flags : Nat)
    (hj : flags &&& 4 ≠ 0) (matching : Bool) (cs : List EncoderCall) :
    ∃ engine e', Engine.init dict = .ok (some engine) ∧
      (Encoder.new engine flags matching).calls cs = .ok (cs.map fun _ => ⟨false, []⟩, e') := by
  obtain ⟨engine, hashed, h1, h2, _⟩ := Engine.init_ok (dict := dict) (by simp only [int32Max]; omega)
  have hd : engine.dictionary = dict := by rw [h2]
  have hna : JsonWriter.isAscii dict = false := by
    cases h : JsonWriter.isAscii dict
    · rfl
    · exact absurd ((isAscii_iff _).1 h) hascii
  have key : ∀ (cs : List EncoderCall) (e : Encoder), e.engine = engine → e.allowed = false →
      (∃ w, e.coder = .json w) → ∃ e', e.calls cs = .ok (cs.map fun _ => ⟨false, []⟩, e') := by
    intro cs
    induction cs with
    | nil => intro e _ _ _; exact ⟨e, rfl⟩
    | cons c cs ih =>
      intro e k1 k2 k3
      obtain ⟨w, k3⟩ := k3
      cases c with
      | start =>
        obtain ⟨e', k⟩ := ih { e with coder := .json w.init } k1 k2 ⟨_, rfl⟩
        have hc : e.call .start = .ok (⟨false, []⟩, { e with coder := .json w.init }) := by
          simp only [Encoder.call, Encoder.start, k3, k1, hd, hna, Except.map, Bool.false_eq_true, if_false]
        exact ⟨e', by simp only [Encoder.calls, hc, k, List.map_cons]⟩
      | chunk data =>
        obtain ⟨e', k⟩ := ih e k1 k2 ⟨w, k3⟩
        exact ⟨e', by simp [Encoder.calls, Encoder.call, Encoder.chunk, k2, Except.map, k]⟩
      | finish =>
        obtain ⟨e', k⟩ := ih e k1 k2 ⟨w, k3⟩
        exact ⟨e', by simp [Encoder.calls, Encoder.call, Encoder.finish, k2, k]⟩
  obtain ⟨e', k⟩ := key cs (Encoder.new engine flags matching) rfl rfl ⟨{}, by simp [Encoder.new, createWriter, hj]⟩
  exact ⟨engine, e', h1, k⟩

/-- C32, C33 for encodings with at least one chunk that is not empty, all chunks being ASCII. Whatever has
been done with the encoder before: every call succeeds, and the output is one JSON array. It stands for a list
of instructions, which are, one chunk after the other, instructions that rebuild that chunk from the
dictionary. -/
theorem json_document (dict : Bytes) (hdict : dict.length < 2 ^ 31) (hascii : Ascii dict) (flags : Nat)
    (hj : flags &&& 4 ≠ 0) (matching : Bool) (history : List EncoderCall)
    (hh : EachChunk (fun data => dict.length + data.length < 2 ^ 31) history) (chunks : List Bytes)
    (hs : ∀ data ∈ chunks, dict.length + data.length < 2 ^ 31 ∧ Ascii data) (hne : chunks.flatten ≠ []) :
    ∃ (engine : Engine) (old new : List EncoderReply) (e' : Encoder) (values : List JsonValue)
      (opss : List (List Op)), Engine.init dict = .ok (some engine) ∧
      (Encoder.new engine flags matching).calls (history ++ ([.start] ++ chunks.map .chunk ++ [.finish])) =
        .ok (old ++ new, e') ∧
      old.length = history.length ∧ (∀ r ∈ new, r.ret = true) ∧
      JsonArray (new.flatMap (·.out)) values ∧ jsonOps values = some opss.flatten ∧
      opss.length = (chunks.filter (· ≠ [])).length ∧
      ∀ (i : Nat) (data : Bytes), (chunks.filter (· ≠ []))[i]? = some data → ∃ ops, opss[i]? = some ops ∧
        execOps dict ops = dict ++ data ∧
        ∀ pre op post, ops = pre ++ op :: post → Emittable dict.length matching (execOps dict pre).length op := by
  obtain ⟨engine, items, h1, h2, h3⟩ := json_protocol dict hdict hascii flags hj matching
  obtain ⟨e', k⟩ := h2 (history ++ ([.start] ++ chunks.map .chunk ++ [.finish])) (by
    intro data hm
    simp at hm
    rcases hm with hm | hm
    · exact hh data hm
    · exact (hs data hm).1)
  -- the history
  have key : ∀ (l : List EncoderCall) (a f u : Bool), ∃ (old : List EncoderReply) (u' : Bool), old.length = l.length ∧
      ∀ cs, jsonProtocol items a f u (l ++ .start :: cs) = old ++ ⟨true, []⟩ :: jsonProtocol items true true u' cs := by
    intro l
    induction l with
    | nil => intro a f u; exact ⟨[], u, rfl, fun cs => by cases a <;> rfl⟩
    | cons c l ih =>
      intro a f u
      obtain ⟨a', f', u', r, hr⟩ : ∃ a' f' u' r, ∀ l', jsonProtocol items a f u (c :: l') =
          r :: jsonProtocol items a' f' u' l' := by
        cases c with
        | start => cases a <;> exact ⟨_, _, _, _, fun _ => rfl⟩
        | finish => cases a <;> exact ⟨_, _, _, _, fun _ => rfl⟩
        | chunk data =>
          cases a
          · exact ⟨_, _, _, _, fun _ => rfl⟩
          · simp only [jsonProtocol]
            split
            · split
              · exact ⟨_, _, _, _, fun _ => rfl⟩
              · exact ⟨_, _, _, _, fun _ => rfl⟩
            · exact ⟨_, _, _, _, fun _ => rfl⟩
      obtain ⟨old, u'', o1, o2⟩ := ih a' f' u'
      exact ⟨r :: old, u'', by simp [o1], fun cs => by rw [List.cons_append, hr, o2]; rfl⟩
  obtain ⟨old, u', o1, o2⟩ := key history false true false
  have hlist : history ++ ([.start] ++ chunks.map .chunk ++ [.finish]) =
      history ++ .start :: (chunks.map .chunk ++ [.finish]) := by simp
  rw [hlist] at k
  rw [o2] at k
  have asc : ∀ data, Ascii data → (List.all data fun x => decide (x < 0x80)) = true :=
    fun data h => (isAscii_iff data).2 h
  -- chunks after the first
  have more : ∀ cs : List Bytes, (∀ data ∈ cs, Ascii data) → ∀ u, (u = true) →
      (∀ r ∈ jsonProtocol items true false u (cs.map .chunk ++ [.finish]), r.ret = true) ∧
      (jsonProtocol items true false u (cs.map .chunk ++ [.finish])).flatMap (·.out) =
        (cs.filter (· ≠ [])).flatMap (fun c => [0x2C] ++ items c) ++ [0x5D] := by
    intro cs
    induction cs with
    | nil => intro _ u hu; subst hu; simp [jsonProtocol]
    | cons c cs ih =>
      intro ha u hu
      subst hu
      obtain ⟨i1, i2⟩ := ih (fun d hd => ha d (List.mem_cons_of_mem _ hd)) true rfl
      simp only [List.map_cons, List.cons_append, jsonProtocol, asc c (ha c (List.mem_cons_self ..)), if_true]
      by_cases hc : c = []
      · subst hc
        simp only [if_true, List.mem_cons, List.flatMap_cons, List.nil_append]
        exact ⟨by rintro r (rfl | hr); rfl; exact i1 r hr, by simpa using i2⟩
      · simp only [if_neg hc, List.mem_cons, List.flatMap_cons]
        refine ⟨by rintro r (rfl | hr); rfl; exact i1 r hr, ?_⟩
        rw [i2]
        simp [hc]
  -- up to the first
  have first : ∀ cs : List Bytes, (∀ data ∈ cs, Ascii data) → ∀ u c0 rest, cs.filter (· ≠ []) = c0 :: rest →
      (∀ r ∈ jsonProtocol items true true u (cs.map .chunk ++ [.finish]), r.ret = true) ∧
      (jsonProtocol items true true u (cs.map .chunk ++ [.finish])).flatMap (·.out) =
        [0x5B] ++ (items c0 ++ rest.flatMap (fun c => [0x2C] ++ items c)) ++ [0x5D] := by
    intro cs
    induction cs with
    | nil => intro _ u c0 rest hf; simp at hf
    | cons c cs ih =>
      intro ha u c0 rest hf
      simp only [List.map_cons, List.cons_append, jsonProtocol, asc c (ha c (List.mem_cons_self ..)), if_true]
      by_cases hc : c = []
      · subst hc
        obtain ⟨i1, i2⟩ := ih (fun d hd => ha d (List.mem_cons_of_mem _ hd)) u c0 rest (by simpa using hf)
        simp only [if_true, List.mem_cons, List.flatMap_cons, List.nil_append]
        exact ⟨by rintro r (rfl | hr); rfl; exact i1 r hr, by simpa using i2⟩
      · obtain ⟨i1, i2⟩ := more cs (fun d hd => ha d (List.mem_cons_of_mem _ hd)) true rfl
        simp only [if_neg hc, List.mem_cons, List.flatMap_cons]
        have hf' : c = c0 ∧ cs.filter (· ≠ []) = rest := by simpa [hc] using hf
        refine ⟨by rintro r (rfl | hr); rfl; exact i1 r hr, ?_⟩
        rw [i2, hf'.2, hf'.1]
        simp
  -- the items
  have hitems : ∀ (rest : List Bytes) (c0 : Bytes), (∀ data ∈ c0 :: rest, data ≠ [] ∧ Ascii data ∧ dict.length + data.length < 2 ^ 31) →
      ∃ (values : List JsonValue) (opss : List (List Op)), JsonItems (items c0 ++ rest.flatMap (fun c => [0x2C] ++ items c)) values ∧
        jsonOps values = some opss.flatten ∧ opss.length = (c0 :: rest).length ∧
        ∀ (i : Nat) (data : Bytes), (c0 :: rest)[i]? = some data → ∃ ops, opss[i]? = some ops ∧
          execOps dict ops = dict ++ data ∧
          ∀ pre op post, ops = pre ++ op :: post → Emittable dict.length matching (execOps dict pre).length op := by
    intro rest
    induction rest with
    | nil =>
      intro c0 hall
      obtain ⟨q1, q2, q3⟩ := hall c0 (List.mem_cons_self ..)
      obtain ⟨values, ops, v1, v2, v3, v4⟩ := h3 c0 q1 q2 q3
      refine ⟨values, [ops], by simpa using v1, by simpa using v2, rfl, ?_⟩
      intro i data hi
      cases i with
      | zero => simp at hi; subst hi; exact ⟨ops, rfl, v3, v4⟩
      | succ i => simp at hi
    | cons c1 rest ih =>
      intro c0 hall
      obtain ⟨q1, q2, q3⟩ := hall c0 (List.mem_cons_self ..)
      obtain ⟨values, ops, v1, v2, v3, v4⟩ := h3 c0 q1 q2 q3
      obtain ⟨values', opss, w1, w2, w3, w4⟩ := ih c1 (fun d hd => hall d (List.mem_cons_of_mem _ hd))
      refine ⟨values ++ values', ops :: opss, ?_, ?_, by simp [w3], ?_⟩
      · have := v1.append w1
        simpa using this
      · rw [List.flatten_cons]; exact jsonOps_append v2 w2
      · intro i data hi
        cases i with
        | zero => simp at hi; subst hi; exact ⟨ops, rfl, v3, v4⟩
        | succ i => exact w4 i data (by simpa using hi)
  cases hfil : chunks.filter (· ≠ []) with
  | nil =>
    exfalso
    apply hne
    rw [List.flatten_eq_nil_iff]
    intro l hl
    have := List.filter_eq_nil_iff.1 hfil l hl
    simpa using this
  | cons c0 rest =>
    obtain ⟨f1, f2⟩ := first chunks (fun d hd => (hs d hd).2) u' c0 rest hfil
    obtain ⟨values, opss, w1, w2, w3, w4⟩ := hitems rest c0 (by
      intro data hm
      rw [← hfil] at hm
      simp at hm
      exact ⟨hm.2, (hs data hm.1).2, (hs data hm.1).1⟩)
    refine ⟨engine, old, _, e', values, opss, h1, by rw [hlist]; exact k, o1, ?_, ?_, w2, w3, w4⟩
    · intro r hr
      rcases List.mem_cons.1 hr with rfl | hr
      · rfl
      · exact f1 r hr
    · rw [List.flatMap_cons, f2, List.nil_append]
      exact .mk w1

/-- C32. The output of a complete encode, from whatever encoder, is a JSON array that stands for
instructions which rebuild the target from the dictionary: if the target comes in one chunk, or target
matching is off. -/
theorem json_denotes_target (dict : Bytes) (hdict : dict.length < 2 ^ 31) (hascii : Ascii dict) (flags : Nat)
    (hj : flags &&& 4 ≠ 0) (matching : Bool) (history : List EncoderCall)
    (hh : EachChunk (fun data => dict.length + data.length < 2 ^ 31) history) (chunks : List Bytes)
    (hs : ∀ data ∈ chunks, dict.length + data.length < 2 ^ 31 ∧ Ascii data) (hne : chunks.flatten ≠ [])
    (hm : matching = false ∨ (chunks.filter (· ≠ [])).length = 1) :
    ∃ (engine : Engine) (old new : List EncoderReply) (e' : Encoder) (values : List JsonValue)
      (ops : List Op), Engine.init dict = .ok (some engine) ∧
      (Encoder.new engine flags matching).calls (history ++ ([.start] ++ chunks.map .chunk ++ [.finish])) =
        .ok (old ++ new, e') ∧
      old.length = history.length ∧ (∀ r ∈ new, r.ret = true) ∧
      JsonArray (new.flatMap (·.out)) values ∧ jsonOps values = some ops ∧
      execOps dict ops = dict ++ chunks.flatten := by
  obtain ⟨engine, old, new, e', values, opss, h1, h2, h3, h4, h5, h6, h7, h8⟩ :=
    json_document dict hdict hascii flags hj matching history hh chunks hs hne
  refine ⟨engine, old, new, e', values, opss.flatten, h1, h2, h3, h4, h5, h6, ?_⟩
  have hflat : ∀ l : List Bytes, l.flatten = (l.filter (· ≠ [])).flatten := by
    intro l
    induction l with
    | nil => rfl
    | cons c l ih =>
      by_cases hc : c = []
      · subst hc; simpa using ih
      · simpa [hc] using ih
  rw [hflat]
  generalize chunks.filter (· ≠ []) = cs at *
  rcases hm with hm | hm
  · subst hm
    have key : ∀ (cs : List Bytes) (opss : List (List Op)), opss.length = cs.length →
        (∀ (i : Nat) (data : Bytes), cs[i]? = some data → ∃ ops, opss[i]? = some ops ∧
          execOps dict ops = dict ++ data ∧
          ∀ pre op post, ops = pre ++ op :: post → Emittable dict.length false (execOps dict pre).length op) →
        ∀ x, execOps (dict ++ x) opss.flatten = dict ++ x ++ cs.flatten := by
      intro cs
      induction cs with
      | nil =>
        intro opss hl _ x
        have := List.length_eq_zero_iff.1 hl
        subst this
        simp [execOps]
      | cons c cs ih =>
        intro opss hl hall x
        cases opss with
        | nil => simp at hl
        | cons ops opss =>
          obtain ⟨ops', k1, k2, k3⟩ := hall 0 c rfl
          simp only [List.getElem?_cons_zero, Option.some.injEq] at k1
          subst k1
          obtain ⟨y, hy⟩ := execOps_dict (dict := dict) (ops := ops) (by
            intro op ho a n e
            obtain ⟨pre, post, e'⟩ := List.append_of_mem ho
            have := k3 pre op post e'
            rw [e] at this
            exact this.2.2.resolve_right (by simp))
          have hyc : y = c := by
            have := hy []
            rw [List.append_nil, k2] at this
            exact (List.append_cancel_left this).symm
          subst hyc
          have : execOps (dict ++ x) (ops :: opss).flatten = execOps (execOps (dict ++ x) ops) opss.flatten := by
            simp [execOps]
          rw [this, hy, List.append_assoc, ih opss (by simpa using hl) (fun i data hi => by simpa using hall (i + 1) data (by simpa using hi))]
          simp
    have := key cs opss h7 h8 []
    simpa using this
  · obtain ⟨c, rfl⟩ := List.length_eq_one_iff.1 hm
    obtain ⟨ops, k1, k2, _⟩ := h8 0 c rfl
    have hl : opss = [ops] := by
      rw [hm] at h7
      obtain ⟨o, rfl⟩ := List.length_eq_one_iff.1 h7
      simp at k1
      rw [k1]
    rw [hl]
    simpa using k2

/-- The hypotheses are met: an ASCII dictionary, a used encoder, two chunks with all kinds of characters. -/
example : Ascii [0x61, 0x22, 0x0A] ∧ (4 : Nat) &&& 4 ≠ 0 ∧
    (∀ data ∈ [[0x22, 0x5C, 0x00], [], [(0x7F : UInt8)]], ([0x61, 0x22, 0x0A] : Bytes).length + data.length < 2 ^ 31 ∧ Ascii data) ∧
    [[0x22, 0x5C, 0x00], [], [(0x7F : UInt8)]].flatten ≠ [] := by
  refine ⟨by intro c hc; simp at hc; rcases hc with rfl | rfl | rfl <;> decide, by decide, ?_, by simp⟩
  intro data hm
  simp at hm
  rcases hm with rfl | rfl | rfl
  · exact ⟨by simp, by intro c hc; simp at hc; rcases hc with rfl | rfl | rfl <;> decide⟩
  · exact ⟨by simp, by intro c hc; simp at hc⟩
  · exact ⟨by simp, by intro c hc; simp at hc; subst hc; decide⟩

/-- C32, where it fails: with target matching and several chunks, the address of a COPY from the target
counts from the beginning of its own chunk, but the document does not tell where chunks begin. Here the
second chunk is `abcdabcd...`, and the document is `["x","abcd",0,116]`. -/
theorem json_chunks_with_matching : ∃ text values ops,
    encode [] 4 true [[0x78], (List.replicate 30 [0x61, 0x62, 0x63, 0x64]).flatten] = .ok (some text) ∧
    JsonArray text values ∧ jsonOps values = some ops ∧
    execOps [] ops ≠ [0x78] ++ (List.replicate 30 [0x61, 0x62, 0x63, 0x64]).flatten := by
  have hrun : encode [] 4 true [[0x78], (List.replicate 30 [0x61, 0x62, 0x63, 0x64]).flatten] = .ok (some ([0x5B] ++
      ([0x22] ++ [0x78] ++ [0x22] ++ [0x2C] ++ ([0x22] ++ [0x61, 0x62, 0x63, 0x64] ++ [0x22] ++ [0x2C] ++
      ([0x30] ++ [0x2C] ++ [0x31, 0x31, 0x36]))) ++ [0x5D])) := by
    have : (encode [] 4 true [[0x78], (List.replicate 30 [0x61, 0x62, 0x63, 0x64]).flatten]).toOption = some (some ([0x5B] ++
      ([0x22] ++ [0x78] ++ [0x22] ++ [0x2C] ++ ([0x22] ++ [0x61, 0x62, 0x63, 0x64] ++ [0x22] ++ [0x2C] ++
      ([0x30] ++ [0x2C] ++ [0x31, 0x31, 0x36]))) ++ [0x5D])) := by decide +kernel
    revert this
    generalize encode [] 4 true [[0x78], (List.replicate 30 [0x61, 0x62, 0x63, 0x64]).flatten] = x
    intro this
    cases x with
    | error f => simp [Except.toOption] at this
    | ok o => simp only [Except.toOption, Option.some.injEq] at this; rw [this]
  refine ⟨_, [.str [0x78], .str [0x61, 0x62, 0x63, 0x64], .num 0, .num 116],
    [.add [0x78], .add [0x61, 0x62, 0x63, 0x64], .copy 0 116], hrun, ?_, rfl, by decide +kernel⟩
  · have hc : ∀ c : UInt8, 0x20 ≤ c → c < 0x80 → c ≠ 0x22 → c ≠ 0x5C → JsonChars [c] [c] := fun c h1 h2 h3 h4 =>
      .cons (ts := []) (.plain h1 h2 h3 h4) .nil
    have h4 : JsonChars [0x61, 0x62, 0x63, 0x64] [0x61, 0x62, 0x63, 0x64] :=
      JsonWriter.escape_ok [0x61, 0x62, 0x63, 0x64] (by intro c hc; simp at hc; rcases hc with rfl | rfl | rfl | rfl <;> decide)
    exact .mk (.cons (.str (hc 0x78 (by decide) (by decide) (by decide) (by decide))) (.cons (.str h4)
      (.cons (JsonWriter.decimal_ok 0) (.one (JsonWriter.decimal_ok 116)))))

/-- C33, where it fails: an empty target gives an empty document, and with an encoder that has been used
before it gives a single bracket. Neither is JSON. -/
theorem json_empty_target :
    (∃ engine rs e', Engine.init [] = .ok (some engine) ∧
      (Encoder.new engine 4 true).calls [.start, .finish, .start, .chunk [0x61], .finish, .start, .finish] = .ok (rs, e') ∧
      rs.map (·.ret) = [true, true, true, true, true, true, true] ∧
      (rs.take 2).flatMap (·.out) = [] ∧ (rs.drop 5).flatMap (·.out) = [0x5D]) ∧
    (¬ ∃ values, JsonArray [] values) ∧ ¬ ∃ values, JsonArray [0x5D] values := by
  refine ⟨?_, ?_, ?_⟩
  · obtain ⟨engine, items, h1, h2, _⟩ := json_protocol [] (by simp) (by intro c hc; simp at hc) 4 (by decide) true
    obtain ⟨e', k⟩ := h2 [.start, .finish, .start, .chunk [0x61], .finish, .start, .finish] (by
      intro data hm; simp at hm; subst hm; simp)
    exact ⟨engine, _, e', h1, k, rfl, rfl, rfl⟩
  · rintro ⟨values, h⟩
    generalize ht : ([] : Bytes) = t at h
    cases h <;> simp at ht
  · rintro ⟨values, h⟩
    generalize ht : ([0x5D] : Bytes) = t at h
    cases h <;> simp at ht

/-- `Run` of the JSON writer does not escape its byte (the engine never calls it, other users of the writer
may): a run of line feeds gives a document that is not JSON. -/
theorem json_run_not_escaped :
    let w := (({} : JsonWriter).init.run 2 0x0A)
    ¬ ∃ values, JsonArray (w.flush.1 ++ w.flush.2.finish) values := by
  intro w
  rintro ⟨values, h⟩
  have ht : w.flush.1 ++ w.flush.2.finish =
      [0x5B, 0x22, 0x0A, 0x0A, 0x22, 0x5D] := rfl
  rw [ht] at h
  generalize ht : ([0x5B, 0x22, 0x0A, 0x0A, 0x22, 0x5D] : Bytes) = t at h
  cases h with
  | empty => simp at ht
  | mk h =>
    have := congrArg List.length ht
    rename_i t
    have hm : (0x0A : UInt8) ∈ t := by
      have hx : (0x0A : UInt8) ∈ [0x5B] ++ t ++ [0x5D] := by rw [← ht]; simp
      simpa using hx
    exact absurd (h.printable _ hm) (by decide)

end Props
end Vcd
