import Verif.Model.Exceptions
import Verif.Proof.Eager
import Verif.Proof.Encoder
import Verif.Proof.Json
import Verif.Proof.Shortest
import Verif.Props.Encoder

/-!
# What is left after an exception in the encoder: lemmas for C78 and C79
-/

namespace Vcd
open Spec

theorem Writer.Throws.prefix {w w' : Writer} {cs : List CoderCall} {out : Bytes} (h : w.Throws cs out w') :
    ∀ full w1, w.calls cs = .ok (full, w1) → out <+: full := by
  induction h with
  | here => intro full w1 _; exact List.nil_prefix
  | @output w w' cs part window ps _ _ h3 h4 =>
    intro full w1 e
    simp only [Writer.calls, Writer.call, Writer.output, h3] at e
    split at e
    · cases e
    · rename_i o w2 hx
      split at hx
      · cases hx
      · cases hx
      · simp only [Except.ok.injEq, Prod.mk.injEq] at hx
        cases hc : w2.calls cs with
        | error f => simp [hc, Except.map] at e
        | ok p =>
          simp only [hc, Except.map, Except.ok.injEq, Prod.mk.injEq] at e
          rw [← e.1, ← hx.1]
          exact h4.trans (List.prefix_append ..)
  | @later w w1 w' c cs o part h1 _ ih =>
    intro full w2 e
    simp only [Writer.calls, h1] at e
    cases hc : w1.calls cs with
    | error f => simp [hc, Except.map] at e
    | ok p =>
      simp only [hc, Except.map, Except.ok.injEq, Prod.mk.injEq] at e
      rw [← e.1]
      exact List.prefix_append_right_inj o |>.2 (ih p.1 p.2 hc)

theorem JsonWriter.Throws.prefix {w w' : JsonWriter} {cs : List CoderCall} {out : Bytes} (h : w.Throws cs out w') :
    out <+: (w.calls cs).1 := by
  induction h with
  | here => exact List.nil_prefix
  | output h => exact h.trans (List.prefix_append ..)
  | later _ ih => exact List.prefix_append_right_inj _ |>.2 ih

/-- What an exception in `EncodeChunk` leaves in the output string. -/
theorem Encoder.ChunkThrows.prefix {e e' e1 : Encoder} {data out full : Bytes} {ret : Bool} (h : e.ChunkThrows data out e')
    (hc : e.chunk data = .ok (ret, full, e1)) : ret = true ∧ out <+: full := by
  unfold Encoder.chunk at hc
  cases h with
  | @early w ha hw =>
    simp only [ha, hw, Bool.not_true, Bool.false_eq_true, if_false] at hc
    split at hc
    · cases hc
    · split at hc
      · cases hc
      · simp only [Except.ok.injEq, Prod.mk.injEq] at hc
        exact ⟨hc.1.symm, List.nil_prefix⟩
  | @earlyJson w ha hw hj =>
    simp only [ha, hw, hj, Bool.not_true, Bool.false_eq_true, if_false] at hc
    split at hc
    · cases hc
    · simp only [Except.ok.injEq, Prod.mk.injEq] at hc
      exact ⟨hc.1.symm, List.nil_prefix⟩
  | @writer w w' calls _ ha hw he ht =>
    simp only [ha, hw, he, Bool.not_true, Bool.false_eq_true, if_false] at hc
    split at hc
    · cases hc
    · rename_i o w2 hx
      simp only [Except.ok.injEq, Prod.mk.injEq] at hc
      rw [← hc.2.1]
      exact ⟨hc.1.symm, ht.prefix _ _ hx⟩
  | @json w w' calls _ ha hw hj he ht =>
    simp only [ha, hw, hj, he, Bool.not_true, Bool.false_eq_true, if_false] at hc
    simp only [Except.ok.injEq, Prod.mk.injEq] at hc
    rw [← hc.2.1]
    exact ⟨hc.1.symm, ht.prefix⟩

/-! ## The writer when the output string throws -/

/-- The writer after the instructions of a chunk have been written, and what an exception there leaves. -/
theorem Writer.calls_reach {c : Coding} {maxMode : Nat} {m : InstructionMap} (u : Writer.Usable c maxMode m) {d : Nat} {w : Writer}
    {done todo : List Op} {items : List Item} (hi : Writer.Inv c maxMode m d w done items) (hw : WritableAll (d + sizes done) todo) :
    ∃ w' : Writer, (∀ cs, w.calls (todo.map Op.call ++ cs) = w'.calls cs) ∧
      (∀ cs out w2, w'.Throws cs out w2 → w.Throws (todo.map Op.call ++ cs) out w2) := by
  induction todo generalizing w done items with
  | nil => exact ⟨w, fun cs => rfl, fun cs out w2 h => h⟩
  | cons o ops ih =>
    obtain ⟨w1, k1, _, _, _, _, items1, k6⟩ := call_ok u hi hw.1
    obtain ⟨w2, j1, j2⟩ := ih k6 (by
      have := hw.2
      rw [sizes_append]
      simpa [sizes, Nat.add_assoc] using this)
    refine ⟨w2, fun cs => ?_, fun cs out w3 h => ?_⟩
    · simp only [List.map_cons, List.cons_append, calls, k1, j1, Except.map, List.nil_append]
      cases w2.calls cs with
      | error => rfl
      | ok r => rfl
    · exact Throws.later (out := []) k1 (j2 cs out w3 h)

theorem Writer.WritableAll.append {here : Nat} {a b : List Op} (ha : WritableAll here a) (hb : WritableAll (here + sizes a) b) :
    WritableAll here (a ++ b) := by
  induction a generalizing here with
  | nil => simpa [sizes] using hb
  | cons o ops ih =>
    refine ⟨ha.1, ih ha.2 ?_⟩
    have : here + sizes (o :: ops) = here + o.size + sizes ops := by simp [sizes, Nat.add_assoc]
    rwa [this] at hb

/-- Instructions that copy from the dictionary alone can be written later, too. -/
theorem Writer.writable_later {dict T : Bytes} {ops : List Op} (h : Engine.Whole dict T false ops) (n : Nat)
    (hs : dict.length + n + T.length ≤ int32Max) : WritableAll (dict.length + n) ops := by
  have hlen := execOps_length ops dict
  rw [h.exec, List.length_append] at hlen
  have : ∀ (pre post : List Op), ops = pre ++ post → WritableAll (dict.length + n + sizes pre) post := by
    intro pre post
    induction post generalizing pre with
    | nil => intro _; trivial
    | cons o post ih =>
      intro e
      have he := h.emittable pre o post e
      have hsz : sizes ops = sizes pre + (o.size + sizes post) := by rw [e, sizes_append]; simp [sizes]
      refine ⟨?_, ?_⟩
      · cases o with
        | add bytes =>
          simp only [Emittable] at he
          exact ⟨List.length_pos_iff.2 he, by omega, fun a n e => by cases e⟩
        | run b n => exact absurd he (by simp [Emittable])
        | copy a k =>
          simp only [Emittable, Bool.false_eq_true, false_and, or_false] at he
          refine ⟨by simp only [Op.size]; omega, by omega, ?_⟩
          intro a' n' e'
          cases e'
          omega
      · have := ih (pre ++ [o]) (by rw [e]; simp)
        rw [sizes_append] at this
        simpa [sizes, Nat.add_assoc] using this
  simpa [sizes] using this [] ops rfl

namespace Encoder

/-- A chunk `A` whose window could not be appended to the output string, and then a chunk `B`, without target matching and without checksums:
the window of the second call stands for `A ++ B`. -/
theorem retried {e0 e : Encoder} {dict : Bytes} {m : InstructionMap} (u : Writer.Usable defaultCoding 8 m)
    (he : Engine.init dict = .ok (some e0.engine)) (hd : e0.engine.dictionary = dict)
    (h : Inv e0 m e) (ha : e.allowed = true) (hm : e0.lookForTargetMatches = false) (hf : e0.flags &&& 2 = 0) {A B : Bytes}
    (hA : A ≠ []) (hB : B ≠ []) (hs1 : dict.length + A.length + B.length < 2 ^ 31) (hs2 : A.length + B.length + 70 < 2 ^ 31) :
    ∃ e' e2 window, e.ChunkThrows A [] e' ∧ e'.call (.chunk B) = .ok (⟨true, window⟩, e2) ∧
      ∀ s prev, (A ++ B).length ≤ s.maxWindow → prev.length + (A ++ B).length ≤ s.maxFile →
        WindowCode defaultCoding (e0.flags != 0) strict s dict prev window (A ++ B) := by
  obtain ⟨h1, h2, h3, w, h4, h5, h6, h7⟩ := h
  have hr := h7.resolve_left (fun h => by rw [ha] at h; cases h.2)
  obtain ⟨k1, k2⟩ := chunkWriter_ready hr h5 h6 A
  have key : ∀ T : Bytes, T ≠ [] → dict.length + T.length ≤ int32Max →
      ∃ ops, e0.engine.encode false T = .ok (ops.map Op.call ++ [.output]) ∧ Engine.Whole dict T false ops := by
    intro T hT hl
    obtain ⟨en, ops, i1, _, i3, i4⟩ := Engine.encode_whole (dict := dict) (target := T) (matching := false) hl hT
    rw [he] at i1
    injection i1 with i1
    injection i1 with i1
    subst i1
    exact ⟨ops, i3, i4⟩
  obtain ⟨opsA, a1, a2⟩ := key A hA (by simp only [int32Max]; omega)
  obtain ⟨opsB, b1, b2⟩ := key B hB (by simp only [int32Max]; omega)
  obtain ⟨sA, cA⟩ := Whole.sensible a2
  obtain ⟨_, cB⟩ := Whole.sensible b2
  have szA : sizes opsA = A.length := by
    have := execOps_length opsA dict
    rw [a2.exec, List.length_append] at this; omega
  have nA : opsA ≠ [] := by
    rintro rfl
    have := a2.exec
    simp [execOps] at this
    exact hA this
  rw [hd] at k2
  have wA : Writer.WritableAll dict.length opsA := sA.writableAll (by simp only [int32Max]; omega)
  have wAB : Writer.WritableAll dict.length (opsA ++ opsB) := wA.append (by
    rw [szA]; exact Writer.writable_later b2 _ (by simp only [int32Max]; omega))
  have xB : execOps (dict ++ A) opsB = dict ++ (A ++ B) := by
    obtain ⟨y, hy⟩ := execOps_dict (dict := dict) (ops := opsB) (by
      intro op ho a n e
      obtain ⟨pre, post, e1⟩ := List.append_of_mem ho
      have := b2.emittable pre op post e1
      rw [e] at this
      simp only [Emittable, Bool.false_eq_true, false_and, or_false] at this
      exact this.2.2)
    have h0 := hy []
    rw [List.append_nil, b2.exec] at h0
    rw [hy A, List.append_cancel_left h0, List.append_assoc]
  have xAB : execOps dict (opsA ++ opsB) = dict ++ (A ++ B) := by rw [execOps_append, a2.exec, xB]
  have hck : ∀ v T, (chunkWriter e0 m A).checksum = some v → v = adlerOf T := by
    intro v T hv
    simp [chunkWriter, hf] at hv
  have hext : (chunkWriter e0 m A).interleaved = true ∨ (chunkWriter e0 m A).checksum ≠ none → (e0.flags != 0) = true := by
    rintro (h | h)
    · simp only [chunkWriter, bne_iff_ne, ne_eq] at h ⊢
      rintro e; rw [e] at h; exact h (by decide)
    · simp [chunkWriter, hf] at h
  obtain ⟨wr, r1, r2⟩ := Writer.calls_reach u k2.inv (todo := opsA) (by simpa [sizes] using wA)
  -- the exception
  have ht : (chunkWriter e0 m A).Throws (opsA.map Op.call ++ [.output]) [] wr := by
    refine r2 [.output] [] wr ?_
    obtain ⟨out, o1, _⟩ := Writer.window_ok u nA (s := { maxWindow := A.length, maxFile := A.length, allowTarget := true }) (prev := [])
      (ext := e0.flags != 0) k2 wA a2.exec (by simp only [int32Max]; omega) (by simp only [int32Max]; omega) hext (fun v hv => hck v A hv)
      (Nat.le_refl _) (by simp)
    rw [r1] at o1
    cases hx : (if wr.inst = [] then Except.ok [] else wr.windowBytes : Except Fault Bytes) with
    | error f => simp only [Writer.calls, Writer.call, Writer.output, hx] at o1; cases o1
    | ok window => exact .output (ps := [wr]) rfl (List.mem_singleton.2 rfl) hx List.nil_prefix
  -- the window of the second call
  have hwin : ∀ s prev, (A ++ B).length ≤ s.maxWindow → prev.length + (A ++ B).length ≤ s.maxFile → ∃ out,
      wr.calls (opsB.map Op.call ++ [.output]) = .ok (out, chunkWriter e0 m A) ∧
      WindowCode defaultCoding (e0.flags != 0) strict s dict prev out (A ++ B) := by
    intro s prev hw hp
    obtain ⟨out, o1, o2, _⟩ := Writer.window_ok u (ops := opsA ++ opsB) (by simp [nA]) (s := s) (prev := prev) (ext := e0.flags != 0) k2 wAB xAB
      (by simp only [int32Max, List.length_append]; omega) (by rw [Writer.costs_append]; simp only [int32Max]; omega) hext
      (fun v hv => hck v _ hv) hw hp
    rw [List.map_append, List.append_assoc, r1] at o1
    exact ⟨out, o1, o2⟩
  obtain ⟨out, o1, _⟩ := hwin { maxWindow := (A ++ B).length, maxFile := (A ++ B).length, allowTarget := true } [] (Nat.le_refl _) (by simp)
  refine ⟨{ e with coder := .binary wr }, { e with coder := .binary (chunkWriter e0 m A) }, out, ?_, ?_, ?_⟩
  · exact .writer ha h4 (by rw [h1, h3, hm]; exact a1) (by rw [h2, k1]; exact ht)
  · simp only [call, chunk, ha, h1, h2, h3, hm, hf, b1, o1, Except.map, Bool.not_true, Bool.false_eq_true, if_false, ne_eq, not_true]
  · intro s prev hw hp
    obtain ⟨out', o1', o2'⟩ := hwin s prev hw hp
    rw [o1] at o1'
    cases o1'
    exact o2'

/-! ## Exceptions that leave nothing behind -/

/-- After an exception in `StartEncoding`, the next `StartEncoding` puts things right. -/
theorem StartThrows.start {e0 e e' : Encoder} {m : InstructionMap} (u : Writer.Usable defaultCoding 8 m) (h : Inv e0 m e) {part : Bytes}
    (ht : e.StartThrows part e') : ∃ e1, e'.call .start = .ok (⟨true, Writer.header e0.flags⟩, e1) ∧ Inv e0 m e1 ∧ e1.allowed = true := by
  obtain ⟨h1, h2, h3, w, h4, h5, h6, h7⟩ := h
  have hw : w.table = defaultTable ∧ w.maxMode = 8 ∧ (w.map = none ∨ w.map = some m) ∧
      (w.cache = AddrCache.new 4 3 ∨ ∃ hist, w.cache = AddrCache.ofHist 4 3 hist) ∧ w.inst = [] ∧ w.data = [] ∧ w.addr = [] := by
    rcases h7 with ⟨rfl, _⟩ | h7
    · exact ⟨rfl, rfl, .inl rfl, .inl rfl, rfl, rfl, rfl⟩
    · exact ⟨h7.table, h7.maxMode, .inr h7.inv.map, .inr ⟨_, h7.inv.cache⟩, h7.inv.inst, by rw [h7.inv.data]; simp, by rw [h7.inv.addr]; simp⟩
  obtain ⟨w1, w2, w3, w4, w5, w6, w7⟩ := hw
  have fin : ∀ w' : Writer, w'.table = defaultTable → w'.maxMode = 8 → (w'.map = none ∨ w'.map = some m) →
      (w'.cache = AddrCache.new 4 3 ∨ ∃ hist, w'.cache = AddrCache.ofHist 4 3 hist) → w'.inst = [] → w'.data = [] → w'.addr = [] →
      w'.interleaved = w.interleaved → w'.checksum = w.checksum →
      ∃ e1, ({ e with coder := .binary w' } : Encoder).call .start = .ok (⟨true, Writer.header e0.flags⟩, e1) ∧ Inv e0 m e1 ∧ e1.allowed = true := by
    intro w' i1 i2 i3 i4 i5 i6 i7 i8 i9
    obtain ⟨x, x1, x2, x3, x4⟩ := Writer.init_ready u (w := w') e0.engine.dictionary.length i1 i2 i3 i4 i5 i6 i7
    refine ⟨{ e with coder := .binary x, allowed := true }, ?_, ⟨h1, h2, h3, x, rfl, (x2.trans i8).trans h5, ?_, Or.inr x4⟩, rfl⟩
    · simp only [call, Encoder.start, h1, x1, h2, Except.map]
    · rw [x3, i9]; exact h6
  cases ht with
  | @map w' hw hm =>
    rw [h4] at hw; cases hw
    exact fin _ w1 w2 w3 w4 w5 w6 w7 rfl rfl
  | @cache w' m' hw hm =>
    rw [h4] at hw; cases hw
    refine fin _ w1 w2 (.inr ?_) w4 w5 w6 w7 rfl rfl
    rcases hm with hm | ⟨_, hm⟩
    · rcases w3 with w3 | w3
      · rw [w3] at hm; cases hm
      · rw [w3] at hm; exact hm.symm
    · rw [w1, w2, show InstructionMap.build defaultTable 8 = some m from u.map] at hm
      exact hm.symm
  | @header w' w'' part hw hi hp =>
    rw [h4] at hw; cases hw
    obtain ⟨x, x1, x2, x3, x4⟩ := Writer.init_ready u (w := w) e.engine.dictionary.length w1 w2 w3 w4 w5 w6 w7
    rw [hi] at x1
    cases x1
    exact fin _ x4.table x4.maxMode (.inr x4.inv.map) (.inr ⟨_, x4.inv.cache⟩) x4.inv.inst (by rw [x4.inv.data]; simp)
      (by rw [x4.inv.addr]; simp) x2 x3

/-- After an exception before the first instruction of a chunk, the encoder is as it was, but for a checksum that the next chunk replaces. -/
theorem early_inv {e0 e : Encoder} {m : InstructionMap} (h : Inv e0 m e) (ha : e.allowed = true) {w : Writer} (hw : e.coder = .binary w) (data : Bytes) :
    Inv e0 m { e with coder := .binary (if e.flags &&& 2 ≠ 0 then w.addChecksum (computeAdler32 data) else w) } := by
  obtain ⟨h1, h2, h3, w', h4, h5, h6, h7⟩ := h
  rw [hw] at h4
  cases h4
  have hr := h7.resolve_left (fun h => by rw [ha] at h; cases h.2)
  obtain ⟨k1, k2⟩ := chunkWriter_ready hr h5 h6 data
  refine ⟨h1, h2, h3, _, rfl, ?_, ?_, Or.inr ?_⟩
  · rw [h2, k1]; rfl
  · rw [h2, k1]; intro h0; simp [chunkWriter, h0]
  · rw [h2, k1]; exact k2

end Encoder

/-! ## JSON -/

/-- After an exception, a JSON writer that is initialised again is as before the chunk, or as after it. -/
theorem JsonWriter.Throws.init {w w' : JsonWriter} {ops : List Op} {out : Bytes} (h : w.Throws (ops.map Op.call ++ [.output]) out w') :
    w'.init = w.init ∨ w'.init = (w.calls (ops.map Op.call ++ [.output])).2.init := by
  have hcall : ∀ (w : JsonWriter) (o : Op), (w.call o.call).2.init = w.init := by
    intro w o
    cases o <;> rfl
  induction ops generalizing w out with
  | nil =>
    cases h with
    | here h1 => exact absurd rfl h1
    | output => exact .inr rfl
    | later h => cases h
  | cons o ops ih =>
    have ho : o.call ≠ .output := by cases o <;> simp [Op.call]
    rw [List.map_cons, List.cons_append] at h ⊢
    generalize hc : o.call = c at h ho
    cases h with
    | here => exact .inl rfl
    | later h =>
      rcases ih h with h | h
      · rw [← hc, hcall] at h; exact .inl h
      · exact .inr h
    | output => contradiction

end Vcd
