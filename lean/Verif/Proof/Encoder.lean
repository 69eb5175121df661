import Verif.Spec.Encoder
import Verif.Proof.Engine
import Verif.Props.Writer

/-!
# The streaming encoder: lemmas
-/

namespace Vcd
open Spec

/-- The instructions the engine emits are written in at most 6 bytes more than they produce. -/
theorem costs_of_whole (ops : List Op)
    (h1 : ∀ o ∈ ops, (∃ bytes, o = .add bytes) ∨ ∃ a n, o = .copy a n ∧ 32 ≤ n)
    (h2 : ∀ pre a b post, ops = pre ++ Op.add a :: b :: post → ∃ x n, b = .copy x n) :
    Writer.costs ops ≤ sizes ops + 6 := by
  have hc : ∀ o (l : List Op), Writer.costs (o :: l) = Writer.cost o + Writer.costs l := by simp [Writer.costs]
  have hs : ∀ o (l : List Op), sizes (o :: l) = o.size + sizes l := by simp [sizes]
  induction hn : ops.length using Nat.strongRecOn generalizing ops with
  | _ n ih =>
    match ops, hn with
    | [], _ => simp [Writer.costs]
    | .copy a k :: rest, hn =>
      have := ih rest.length (by simp only [List.length_cons] at hn; omega) rest
        (fun o ho => h1 o (List.mem_cons_of_mem _ ho))
        (fun pre x b post e => h2 (.copy a k :: pre) x b post (by rw [e]; rfl)) rfl
      have hk : 32 ≤ k := by
        rcases h1 (.copy a k) (List.mem_cons_self ..) with ⟨_, e⟩ | ⟨_, _, e, h⟩
        · cases e
        · cases e; exact h
      rw [hc, hs]
      simp only [Writer.cost, Op.size]
      omega
    | .run b k :: rest, _ =>
      rcases h1 (.run b k) (List.mem_cons_self ..) with ⟨_, e⟩ | ⟨_, _, e, _⟩ <;> cases e
    | [.add bytes], _ => simp [Writer.costs, Writer.cost, sizes, Op.size]
    | .add bytes :: b :: rest, hn =>
      obtain ⟨a, k, rfl⟩ := h2 [] bytes b rest rfl
      have := ih rest.length (by simp only [List.length_cons] at hn; omega) rest
        (fun o ho => h1 o (List.mem_cons_of_mem _ (List.mem_cons_of_mem _ ho)))
        (fun pre x b post e => h2 (.add bytes :: .copy a k :: pre) x b post (by rw [e]; rfl)) rfl
      have hk : 32 ≤ k := by
        rcases h1 (.copy a k) (List.mem_cons_of_mem _ (List.mem_cons_self ..)) with ⟨_, e⟩ | ⟨_, _, e, h⟩
        · cases e
        · cases e; exact h
      rw [hc, hc, hs, hs]
      simp only [Writer.cost, Op.size]
      omega

theorem Whole.sensible {dict target : Bytes} {matching : Bool} {ops : List Op} (h : Engine.Whole dict target matching ops) :
    Sensible dict.length ops ∧ Writer.costs ops ≤ target.length + 6 := by
  have hlen := execOps_length ops dict
  rw [h.exec, List.length_append] at hlen
  constructor
  · intro pre o post e
    have he := h.emittable pre o post e
    have hp := execOps_length pre dict
    cases o with
    | add bytes =>
      refine ⟨?_, by simp⟩
      simp only [Emittable] at he
      simp only [Op.size]
      exact List.length_pos_iff.2 he
    | run => exact absurd he (by simp [Emittable])
    | copy a n =>
      simp only [Emittable] at he
      refine ⟨by simp only [Op.size]; omega, ?_⟩
      intro a' n' e'
      cases e'
      omega
  · have := costs_of_whole ops (by
      intro o ho
      obtain ⟨pre, post, e⟩ := List.append_of_mem ho
      have he := h.emittable pre o post e
      cases o with
      | add bytes => exact Or.inl ⟨bytes, rfl⟩
      | run => exact absurd he (by simp [Emittable])
      | copy a n => exact Or.inr ⟨a, n, rfl, he.1⟩) h.noAddAdd
    omega

namespace Encoder

/-- The default code table. -/
theorem usable : ∃ m, Writer.Usable defaultCoding 8 m := Props.default_coding_writable.usable

/-- An encoder in a binary format, between calls. -/
structure Inv (e0 : Encoder) (m : InstructionMap) (e : Encoder) : Prop where
  engine : e.engine = e0.engine
  flags : e.flags = e0.flags
  matching : e.lookForTargetMatches = e0.lookForTargetMatches
  coder : ∃ w, e.coder = .binary w ∧ w.interleaved = (e0.flags &&& 1 != 0) ∧
    (e0.flags &&& 2 = 0 → w.checksum = none) ∧
    ((w = Writer.new (e0.flags &&& 1 != 0) ∧ e.allowed = false) ∨
      Writer.Ready defaultCoding 8 m e0.engine.dictionary.length w)

/-- The writer used for a chunk, after `StartEncoding`. -/
def chunkWriter (e0 : Encoder) (m : InstructionMap) (data : Bytes) : Writer :=
  { interleaved := e0.flags &&& 1 != 0, maxMode := 8, cache := AddrCache.ofHist 4 3 [],
    dictionarySize := e0.engine.dictionary.length, table := defaultTable, map := some m,
    checksum := if e0.flags &&& 2 ≠ 0 then some (computeAdler32 data) else none }

/-- What is output for a chunk. -/
def window (e0 : Encoder) (m : InstructionMap) (data : Bytes) : Bytes :=
  match e0.engine.encode e0.lookForTargetMatches data with
  | .error _ => []
  | .ok calls =>
    match (chunkWriter e0 m data).calls calls with
    | .error _ => []
    | .ok (out, _) => out

/-- The limits on chunks. -/
def Small (dict data : Bytes) : Prop := dict.length + data.length < 2 ^ 31 ∧ data.length + 64 < 2 ^ 31

theorem start_ok {e0 e : Encoder} {m : InstructionMap} (u : Writer.Usable defaultCoding 8 m) (h : Inv e0 m e) :
    ∃ e', e.call .start = .ok (⟨true, Writer.header e0.flags⟩, e') ∧ Inv e0 m e' ∧ e'.allowed = true := by
  obtain ⟨h1, h2, h3, w, h4, h5, h6, h7⟩ := h
  have : ∃ w', w.init e0.engine.dictionary.length = .ok (true, w') ∧ w'.interleaved = w.interleaved ∧
      w'.checksum = w.checksum ∧ Writer.Ready defaultCoding 8 m e0.engine.dictionary.length w' := by
    rcases h7 with ⟨rfl, _⟩ | h7
    · exact Writer.init_ready u (w := Writer.new (e0.flags &&& 1 != 0)) _ rfl rfl (Or.inl rfl) (Or.inl rfl) rfl rfl rfl
    · exact ⟨w, h7.init u, rfl, rfl, h7⟩
  obtain ⟨w', k1, k2, k3, k4⟩ := this
  refine ⟨{ e with coder := .binary w', allowed := true }, ?_, ⟨h1, h2, h3, w', rfl, k2.trans h5, ?_, Or.inr k4⟩, rfl⟩
  · simp only [call, start, h4, h1, k1, h2, Except.map]
  · rw [k3]; exact h6

theorem finish_ok {e0 e : Encoder} {m : InstructionMap} (h : Inv e0 m e) :
    ∃ e', e.call .finish = .ok (⟨e.allowed, []⟩, e') ∧ Inv e0 m e' ∧ e'.allowed = false := by
  obtain ⟨h1, h2, h3, w, h4, h5, h6, h7⟩ := h
  cases ha : e.allowed
  · exact ⟨e, by simp [call, finish, ha], ⟨h1, h2, h3, w, h4, h5, h6, h7⟩, ha⟩
  · refine ⟨{ e with allowed := false }, by simp [call, finish, ha, h4], ⟨h1, h2, h3, w, h4, h5, h6, ?_⟩, rfl⟩
    rcases h7 with ⟨_, hf⟩ | h7
    · rw [ha] at hf; cases hf
    · exact Or.inr h7

theorem chunk_refused {e : Encoder} (ha : e.allowed = false) (data : Bytes) :
    e.call (.chunk data) = .ok (⟨false, []⟩, e) := by
  simp [call, chunk, ha, Except.map]

theorem chunkWriter_ready {e0 : Encoder} {m : InstructionMap} {w : Writer}
    (h : Writer.Ready defaultCoding 8 m e0.engine.dictionary.length w) (h5 : w.interleaved = (e0.flags &&& 1 != 0))
    (h6 : e0.flags &&& 2 = 0 → w.checksum = none) (data : Bytes) :
    (if e0.flags &&& 2 ≠ 0 then w.addChecksum (computeAdler32 data) else w) = chunkWriter e0 m data ∧
    Writer.Ready defaultCoding 8 m e0.engine.dictionary.length (chunkWriter e0 m data) := by
  have key : (if e0.flags &&& 2 ≠ 0 then w.addChecksum (computeAdler32 data) else w) = chunkWriter e0 m data := by
    by_cases h0 : e0.flags &&& 2 = 0
    · rw [if_neg (by simpa using h0), h.eq, h6 h0, h5]
      simp only [chunkWriter, h0, ne_eq, not_true, if_false]
      rfl
    · rw [if_pos h0, h.eq, h5]
      simp only [chunkWriter, Writer.addChecksum, if_pos h0]
      rfl
  refine ⟨key, ?_⟩
  rw [← key]
  split
  · exact h.addChecksum _
  · exact h

theorem chunkWriter_always_ready {e0 : Encoder} {m : InstructionMap} (u : Writer.Usable defaultCoding 8 m) (data : Bytes) :
    Writer.Ready defaultCoding 8 m e0.engine.dictionary.length (chunkWriter e0 m data) := by
  obtain ⟨w, _, k2, k3, k4⟩ := Writer.init_ready u (w := Writer.new (e0.flags &&& 1 != 0)) e0.engine.dictionary.length
    rfl rfl (Or.inl rfl) (Or.inl rfl) rfl rfl rfl
  exact (chunkWriter_ready k4 k2 (fun _ => k3) data).2

/-- What the window of a chunk is. -/
theorem window_spec {e0 : Encoder} {dict : Bytes} {m : InstructionMap} (u : Writer.Usable defaultCoding 8 m)
    (he : Engine.init dict = .ok (some e0.engine)) {data : Bytes} (hs : Small dict data)
    (hr : Writer.Ready defaultCoding 8 m dict.length (chunkWriter e0 m data)) :
    (data = [] ∧ window e0 m data = [] ∧ e0.engine.encode e0.lookForTargetMatches data = .ok []) ∨
    (data ≠ [] ∧ ∃ calls, e0.engine.encode e0.lookForTargetMatches data = .ok calls ∧
      (chunkWriter e0 m data).calls calls = .ok (window e0 m data, chunkWriter e0 m data) ∧
      (window e0 m data).length ≤ data.length + 44 ∧
      Layout (chunkWriter e0 m data).interleaved (chunkWriter e0 m data).checksum.isSome data (window e0 m data) ∧
      (∀ s prev, data.length ≤ s.maxWindow → prev.length + data.length ≤ s.maxFile →
        WindowCode defaultCoding (e0.flags != 0) strict s dict prev (window e0 m data) data) ∧
      (∃ ops, Engine.Whole dict data e0.lookForTargetMatches ops ∧ (window e0 m data).length ≤ Writer.costs ops + 38 ∧
        ∃ (R : Reading (window e0 m data)) (items : List Item), WrittenAs defaultCoding (e0.flags != 0) R dict.length items ops) ∧
      SourceIs dict.length (window e0 m data)) := by
  by_cases hne : data = []
  · left
    subst hne
    have : e0.engine.encode e0.lookForTargetMatches [] = .ok [] := by
      obtain ⟨e, hashed, h1, rfl, _⟩ := Engine.init_ok (dict := dict) (by simp only [int32Max]; have := hs.1; omega)
      rw [he] at h1
      injection h1 with h1
      injection h1 with h1
      rw [h1]
      rfl
    refine ⟨rfl, ?_, this⟩
    simp only [window, this, Writer.calls]
  · right
    refine ⟨hne, ?_⟩
    obtain ⟨e, ops, k1, k2, k3, k4⟩ := Engine.encode_whole (dict := dict) (target := data)
      (matching := e0.lookForTargetMatches) (by simp only [int32Max]; have := hs.1; omega) hne
    rw [he] at k1
    injection k1 with k1
    injection k1 with k1
    subst k1
    obtain ⟨hsens, hcost⟩ := Whole.sensible k4
    have hnil : ops ≠ [] := by
      rintro rfl
      have := k4.exec
      simp [execOps] at this
      exact hne this
    have hT : data.length = sizes ops := by
      have := execOps_length ops dict
      rw [k4.exec, List.length_append] at this; omega
    have hwin : ∀ s prev, data.length ≤ s.maxWindow → prev.length + data.length ≤ s.maxFile →
        ∃ out, (chunkWriter e0 m data).calls (ops.map Op.call ++ [.output]) = .ok (out, chunkWriter e0 m data) ∧
          WindowCode defaultCoding (e0.flags != 0) strict s dict prev out data ∧
          out.length ≤ Writer.costs ops + 38 ∧
          Layout (chunkWriter e0 m data).interleaved (chunkWriter e0 m data).checksum.isSome data out ∧
          SourceIs dict.length out ∧
          ∃ (R : Reading out) (items : List Item), WrittenAs defaultCoding (e0.flags != 0) R dict.length items ops := by
      intro s prev hw hf
      refine Writer.window_ok u hnil hr (hsens.writableAll ?_) k4.exec ?_ ?_ ?_ ?_ hw hf
      · have := hs.1; simp only [int32Max]; omega
      · have := hs.1; simp only [int32Max]; omega
      · have := hs.2; simp only [int32Max]; omega
      · rintro (h | h)
        · simp only [chunkWriter, bne_iff_ne, ne_eq] at h ⊢
          rintro e; rw [e] at h; exact h (by decide)
        · simp only [chunkWriter, bne_iff_ne, ne_eq] at h ⊢
          rintro e; rw [e] at h; exact h (if_neg (by decide))
      · intro v hv
        simp only [chunkWriter] at hv
        split at hv
        · injection hv with hv
          rw [← hv, computeAdler32_eq data (by have := hs.2; omega)]
        · cases hv
    have hout : ∀ out, (chunkWriter e0 m data).calls (ops.map Op.call ++ [.output]) = .ok (out, chunkWriter e0 m data) →
        window e0 m data = out := by
      intro out h
      simp only [window, k3, h]
    refine ⟨_, k3, ?_, ?_, ?_, ?_, ⟨ops, k4, ?_⟩, ?_⟩
    · obtain ⟨out, o1, _, _⟩ := hwin { maxWindow := data.length, maxFile := data.length, allowTarget := true } []
        (Nat.le_refl _) (by simp)
      rw [hout out o1, o1]
    · obtain ⟨out, o1, _, o3, _⟩ := hwin { maxWindow := data.length, maxFile := data.length, allowTarget := true } []
        (Nat.le_refl _) (by simp)
      rw [hout out o1]
      omega
    · obtain ⟨out, o1, _, _, o4, _⟩ := hwin { maxWindow := data.length, maxFile := data.length, allowTarget := true } []
        (Nat.le_refl _) (by simp)
      rw [hout out o1]
      exact o4
    · intro s prev hw hf
      obtain ⟨out, o1, o2, _⟩ := hwin s prev hw hf
      rw [hout out o1]
      exact o2
    · obtain ⟨out, o1, _, o3, _, _, o6⟩ := hwin { maxWindow := data.length, maxFile := data.length, allowTarget := true } []
        (Nat.le_refl _) (by simp)
      rw [hout out o1]
      exact ⟨o3, o6⟩
    · obtain ⟨out, o1, _, _, _, o5, _⟩ := hwin { maxWindow := data.length, maxFile := data.length, allowTarget := true } []
        (Nat.le_refl _) (by simp)
      rw [hout out o1]
      exact o5

theorem chunk_ok {e0 e : Encoder} {dict : Bytes} {m : InstructionMap} (u : Writer.Usable defaultCoding 8 m)
    (he : Engine.init dict = .ok (some e0.engine)) (hd : e0.engine.dictionary = dict)
    (h : Inv e0 m e) (ha : e.allowed = true) {data : Bytes} (hs : Small dict data) :
    ∃ e', e.call (.chunk data) = .ok (⟨true, window e0 m data⟩, e') ∧ Inv e0 m e' ∧ e'.allowed = true := by
  obtain ⟨h1, h2, h3, w, h4, h5, h6, h7⟩ := h
  have hr := h7.resolve_left (fun h => by rw [ha] at h; cases h.2)
  obtain ⟨k1, k2⟩ := chunkWriter_ready hr h5 h6 data
  have hcalls : ∃ calls, e0.engine.encode e0.lookForTargetMatches data = .ok calls ∧
      (chunkWriter e0 m data).calls calls = .ok (window e0 m data, chunkWriter e0 m data) := by
    rcases window_spec u he hs (by rw [← hd]; exact k2) with ⟨_, w1, w2⟩ | ⟨_, calls, w1, w2, _⟩
    · exact ⟨[], w2, by rw [w1]; rfl⟩
    · exact ⟨calls, w1, w2⟩
  obtain ⟨calls, c1, c2⟩ := hcalls
  refine ⟨{ e with coder := .binary (chunkWriter e0 m data) }, ?_, ⟨h1, h2, h3, _, rfl, rfl, ?_, Or.inr k2⟩, ha⟩
  · simp only [call, chunk, ha, h4, h1, h2, h3, k1, c1, c2, Except.map, Bool.not_true, Bool.false_eq_true, if_false]
  · intro h0
    simp [chunkWriter, h0]

/-- Any sequence of calls. -/
theorem calls_ok {e0 e : Encoder} {dict : Bytes} {m : InstructionMap} (u : Writer.Usable defaultCoding 8 m)
    (he : Engine.init dict = .ok (some e0.engine)) (hd : e0.engine.dictionary = dict)
    (h : Inv e0 m e) {cs : List EncoderCall} (hs : EachChunk (Small dict) cs) :
    ∃ e', e.calls cs = .ok (protocol (Writer.header e0.flags) (window e0 m) e.allowed cs, e') ∧ Inv e0 m e' := by
  induction cs generalizing e with
  | nil => exact ⟨e, by cases e.allowed <;> rfl, h⟩
  | cons c cs ih =>
    have hs' : EachChunk (Small dict) cs := fun data hm => hs data (List.mem_cons_of_mem _ hm)
    cases c with
    | start =>
      obtain ⟨e1, k1, k2, k3⟩ := start_ok u h
      obtain ⟨e2, j1, j2⟩ := ih k2 hs'
      rw [k3] at j1
      refine ⟨e2, ?_, j2⟩
      simp only [calls, k1, j1]
      cases e.allowed <;> rfl
    | chunk data =>
      cases ha : e.allowed
      · obtain ⟨e2, j1, j2⟩ := ih h hs'
        rw [ha] at j1
        exact ⟨e2, by simp only [calls, chunk_refused ha, j1]; rfl, j2⟩
      · obtain ⟨e1, k1, k2, k3⟩ := chunk_ok u he hd h ha (hs data (List.mem_cons_self ..))
        obtain ⟨e2, j1, j2⟩ := ih k2 hs'
        rw [k3] at j1
        exact ⟨e2, by simp only [calls, k1, j1]; rfl, j2⟩
    | finish =>
      obtain ⟨e1, k1, k2, k3⟩ := finish_ok h
      obtain ⟨e2, j1, j2⟩ := ih k2 hs'
      rw [k3] at j1
      refine ⟨e2, ?_, j2⟩
      simp only [calls, k1, j1]
      cases e.allowed <;> rfl

theorem new_inv {engine : Engine} {flags : Nat} {matching : Bool} (hb : flags &&& 4 = 0) (m : InstructionMap) :
    Inv (Encoder.new engine flags matching) m (Encoder.new engine flags matching) := by
  refine ⟨rfl, rfl, rfl, Writer.new (flags &&& 1 != 0), ?_, rfl, fun _ => rfl, Or.inl ⟨rfl, rfl⟩⟩
  simp [Encoder.new, createWriter, hb]

end Encoder
/-- The settings a `VCDiffEncoder` uses: those of the first `Encode`. -/
theorem SimpleEncoder.encode_ok {dict : Bytes} {flags : Nat} (hb : flags &&& 4 = 0)
    {matching : Bool} {engine : Engine} {m : InstructionMap} (u : Writer.Usable defaultCoding 8 m)
    (he : Engine.init dict = .ok (some engine)) (hd : engine.dictionary = dict) {x : SimpleEncoder}
    (hx : x.dictionary = dict)
    (hst : (x.encoder = none ∧ x.flags = flags ∧ x.lookForTargetMatches = matching) ∨
      ∃ e, x.encoder = some e ∧ Encoder.Inv (Encoder.new engine flags matching) m e)
    {target : Bytes} (hs : Encoder.Small dict target) :
    ∃ e, x.encode target = .ok (true,
        Writer.header flags ++ Encoder.window (Encoder.new engine flags matching) m target,
        { x with encoder := some e }) ∧ Encoder.Inv (Encoder.new engine flags matching) m e := by
  have : ∃ e, x.streaming = .ok (some e) ∧ Encoder.Inv (Encoder.new engine flags matching) m e := by
    rcases hst with ⟨h1, h2, h3⟩ | ⟨e, h1, h2⟩
    · exact ⟨Encoder.new engine flags matching, by simp only [SimpleEncoder.streaming, h1, hx, he, h2, h3],
        Encoder.new_inv hb m⟩
    · exact ⟨e, by simp only [SimpleEncoder.streaming, h1], h2⟩
  obtain ⟨e, s1, s2⟩ := this
  obtain ⟨e1, k1, k2, k3⟩ := Encoder.start_ok u s2
  obtain ⟨e2, j1, j2, j3⟩ := Encoder.chunk_ok u he hd k2 k3 hs
  obtain ⟨e3, i1, i2, i3⟩ := Encoder.finish_ok j2
  rw [j3] at i1
  refine ⟨e3, ?_, i2⟩
  simp only [SimpleEncoder.encode, s1, k1, j1, i1, List.append_nil, Bool.true_eq_false, if_false]
  rfl

end Vcd
