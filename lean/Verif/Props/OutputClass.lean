import Verif.Proof.OutputClass

/-!
# C86: the output does not depend on the class of the output object

src/google/output_string.h:23-42: "This interface allows clients of VCDiff[Streaming]Encoder and VCDiff[Streaming]Decoder to use different string
types to receive the output of those interfaces. Only the following operations can be performed on an output string, and their semantics must be
identical to the std::string methods of the same names: append() clear() push_back() size() ... ReserveAdditionalBytes() can be defined to do
nothing."

`OutClass` is a class derived from the interface, with arbitrary methods, and the functions whose names end in `To` make the calls of those methods
(`Verif.Model.OutputClass`). `Extends`, `Clears` and `Sized` say what is asked of a class (`Verif.Spec.OutputClass`). The number in the results
counts the messages about a length that does not match: an error in a release build, and the end of the process in a debug build.
-/

namespace Vcd.Props
open Vcd Vcd.Spec

variable {σ : Type} (C : OutClass σ) (text : σ → Bytes)

/-- C86, streaming encoder: whatever is called, in whatever order and format, an object of a class that extends its text as a string does receives,
after the text it had, what a string receives; the results are the same; and if its `size` is right there is no message. `clear` is not
called. -/
theorem encoder_output_to_class (hx : Extends C text) (e e' : Encoder) (cs : List EncoderCall) (rs : List EncoderReply)
    (h : e.calls cs = .ok (rs, e')) (o : σ) :
    ∃ o' n, e.callsTo C o cs = .ok (rs.map (·.ret), o', n, e') ∧ text o' = text o ++ rs.flatMap (·.out) ∧ (Sized C text → n = 0) :=
  Encoder.callsTo_spec hx h o

/-- C86, streaming decoder: the same for every sequence of calls of a decoder; `size` is not called at all. -/
theorem decoder_output_to_class (hx : Extends C text) (d : Decoder) (cs : List DecoderCall) (rs : List DecoderReply)
    (h : ({} : Decoder).calls cs = .ok (rs, d)) (o : σ) :
    ∃ o', ({} : Decoder).callsTo C o cs = .ok (rs.map (·.ret), o', d) ∧ text o' = text o ++ rs.flatMap (·.out) :=
  Decoder.callsTo_spec hx DecInv.new h o

/-- C86, `VCDiffEncoder`: the object contains the delta and nothing else, whatever it contained. -/
theorem simple_encoder_output_to_class (hx : Extends C text) (hc : Clears C text) (s s' : SimpleEncoder) (target out : Bytes) (ret : Bool)
    (h : s.encode target = .ok (ret, out, s')) (o : σ) :
    ∃ o' n, s.encodeTo C target o = .ok (ret, o', n, s') ∧ text o' = out ∧ (Sized C text → n = 0) := by
  obtain ⟨o', n, h1, h2, h3⟩ := SimpleEncoder.encodeTo_spec hx h o
  exact ⟨o', n, h1, by rw [h2, hc]; simp, h3⟩

/-- C86, `VCDiffDecoder`: the object contains the target and nothing else. -/
theorem simple_decoder_output_to_class (hx : Extends C text) (hc : Clears C text) (cs : List DecoderCall) (rs : List DecoderReply)
    (d d' : Decoder) (hd : ({} : Decoder).calls cs = .ok (rs, d)) (dict encoding out : Bytes) (ret : Bool)
    (h : d.decodeTo dict encoding = .ok ((ret, out), d')) (o : σ) :
    ∃ o', d.decodeToClass C dict encoding o = .ok (ret, o', d') ∧ text o' = out := by
  have inv : ∀ (cs : List DecoderCall) (d d' : Decoder) (rs : List DecoderReply), DecInv d → d.calls cs = .ok (rs, d') → DecInv d' := by
    intro cs
    induction cs with
    | nil => intro d d' rs hd h; cases h; exact hd
    | cons c cs ih =>
      intro d d' rs hd h
      rw [Decoder.calls] at h
      cases h1 : d.call c with
      | error f => simp [h1] at h
      | ok p =>
        obtain ⟨r, d1⟩ := p
        simp only [h1] at h
        cases h2 : d1.calls cs with
        | error f => simp [h2] at h
        | ok q =>
          simp only [h2, Except.ok.injEq, Prod.mk.injEq] at h
          exact ih d1 d' q.1 (hd.call h1) (by rw [h2, ← h.2])
  have hi := inv cs _ _ _ DecInv.new hd
  have h0 : d.call (.start dict) = .ok (⟨true, []⟩, d.start dict) := rfl
  obtain ⟨a, k1, k2⟩ := Decoder.callTo_spec hx hi h0 (C.clear o)
  simp only [Decoder.decodeTo] at h
  cases h1 : (d.start dict).call (.chunk encoding) with
  | error f => simp [h1] at h
  | ok p =>
    obtain ⟨r, d1⟩ := p
    simp only [h1] at h
    obtain ⟨b, k3, k4⟩ := Decoder.callTo_spec hx (hi.call h0) h1 a
    have kt : text b = r.out := by rw [k4, k2, hc]; simp
    simp only [Decoder.decodeToClass, k1, k3, bind, Except.bind]
    by_cases hr : r.ret = false
    · rw [if_pos hr] at h ⊢
      simp only [Except.ok.injEq, Prod.mk.injEq] at h
      obtain ⟨⟨rfl, rfl⟩, rfl⟩ := h
      exact ⟨b, rfl, kt⟩
    · rw [if_neg hr] at h ⊢
      simp only [Except.ok.injEq, Prod.mk.injEq] at h
      obtain ⟨⟨rfl, rfl⟩, rfl⟩ := h
      exact ⟨b, rfl, kt⟩

/-- C86, the limit: a class must have a `size` that grows. If it stays the same, as it may if the object hands the text on, then every chunk for
which there is output is followed by the message, in the binary formats, though the output is right. -/
theorem size_is_needed (hx : Extends C text) (hz : ∀ o1 o2, C.size o1 = C.size o2) (e e' : Encoder) (w : Writer) (hb : e.coder = .binary w)
    (data : Bytes) (r : EncoderReply) (h : e.call (.chunk data) = .ok (r, e')) (hl : r.out.length < 2 ^ 64) (o : σ) :
    ∃ o', e.callTo C o (.chunk data) = .ok (r.ret, o', if r.out = [] then 0 else 1, e') ∧ text o' = text o ++ r.out := by
  obtain ⟨o', n, h1, h2, _⟩ := Encoder.callTo_spec hx h o
  suffices hn : n = if r.out = [] then 0 else 1 by rw [← hn]; exact ⟨o', h1, h2⟩
  simp only [Encoder.call, Encoder.chunk] at h
  simp only [Encoder.callTo, Encoder.chunkTo] at h1
  cases ha : e.allowed with
  | false =>
    simp only [ha, Bool.not_false, if_true, Except.map, Except.ok.injEq, Prod.mk.injEq] at h h1
    rw [← h.1, if_pos rfl, ← h1.2.2.1]
  | true =>
    simp only [ha, Bool.not_true, Bool.false_eq_true, if_false, hb] at h h1
    generalize (if e.flags &&& 2 ≠ 0 then w.addChecksum (computeAdler32 data) else w) = w0 at h h1
    cases h3 : e.engine.encode e.lookForTargetMatches data with
    | error f => simp [h3, Except.map] at h
    | ok cs =>
      simp only [h3] at h h1
      cases h4 : w0.calls cs with
      | error f => simp [h4, Except.map] at h
      | ok p =>
        obtain ⟨o1, w1⟩ := p
        simp only [h4, Except.map, Except.ok.injEq, Prod.mk.injEq] at h
        obtain ⟨rfl, rfl⟩ := h
        rcases encode_shape h3 with rfl | ⟨q, hq, rfl⟩
        · cases h4
          simp [Writer.callsTo, Except.map] at h1
          simp [← h1.2]
        · obtain ⟨o2, k⟩ := callsTo_unsized hx hz hq h4 hl o
          simp only [k, Except.map, Except.ok.injEq, Prod.mk.injEq] at h1
          exact h1.2.2.1.symm

/-- C86, the classes of the library: `OutputString` of a class like `std::string`, and `OutputCrope`, are as the theorems ask. -/
theorem output_string_meets (S : StringClass σ) (hS : LikeString S text) :
    (Extends S.output text ∧ Clears S.output text ∧ Sized S.output text) ∧
    (Extends S.outputCrope text ∧ Clears S.outputCrope text ∧ Sized S.outputCrope text) :=
  ⟨⟨⟨hS.append, hS.pushBack, fun _ _ => hS.reserve _ _⟩, hS.clear, hS.size⟩, ⟨hS.append, hS.pushBack, fun _ _ => rfl⟩, hS.clear, hS.size⟩

/-! ## The hypotheses can be met -/

/-- A string in pieces, for which nothing is gained by a reservation. -/
def pieceClass : OutClass (List Bytes) where
  append o bytes := o ++ [bytes]
  clear _ := []
  pushBack o byte := o ++ [[byte]]
  reserve o _ := o
  size o := UInt64.ofNat o.flatten.length

theorem pieceClass_meets : Extends pieceClass List.flatten ∧ Clears pieceClass List.flatten ∧ Sized pieceClass List.flatten :=
  ⟨⟨by simp [pieceClass], by simp [pieceClass], by simp [pieceClass]⟩, by simp [pieceClass, Clears], by simp [pieceClass, Sized]⟩

/-- An object that hands on what it is given and keeps nothing; its state is what it has handed on. -/
def handOnClass : OutClass Bytes where
  append o bytes := o ++ bytes
  clear o := o
  pushBack o byte := o ++ [byte]
  reserve o _ := o
  size _ := 0

theorem handOnClass_meets : Extends handOnClass id ∧ ∀ o1 o2, handOnClass.size o1 = handOnClass.size o2 :=
  ⟨⟨by simp [handOnClass], by simp [handOnClass], by simp [handOnClass]⟩, by simp [handOnClass]⟩

/-- A `std::string`: text and capacity. -/
def textClass : StringClass (Bytes × Nat) where
  append o bytes := (o.1 ++ bytes, max o.2 (o.1.length + bytes.length))
  clear o := ([], o.2)
  pushBack o byte := (o.1 ++ [byte], max o.2 (o.1.length + 1))
  reserve o n := (o.1, max o.2 n.toNat)
  size o := UInt64.ofNat o.1.length

theorem textClass_like : LikeString textClass Prod.fst :=
  ⟨by simp [textClass], by simp [textClass], by simp [textClass], by simp [textClass], by simp [textClass]⟩

/-- Two chunks with checksums, given to both: the same text, of which one object has 1 + 2 · 13 pieces and no message is written, and about the
other there are two messages. -/
example :
    (match Engine.init (List.replicate 20 0x61) with
     | .ok (some engine) =>
       let cs : List EncoderCall := [.start, .chunk (List.replicate 30 0x61 ++ [0x62]), .chunk [0x63], .finish]
       match (Encoder.new engine 3 true).callsTo pieceClass [] cs, (Encoder.new engine 3 true).callsTo handOnClass [] cs,
         (Encoder.new engine 3 true).calls cs with
       | .ok (r1, o1, n1, _), .ok (r2, o2, n2, _), .ok (rs, _) =>
         decide (r1 = [true, true, true, true] ∧ r2 = r1 ∧ o1.flatten = rs.flatMap (·.out) ∧ o2 = o1.flatten ∧ o1.length = 27 ∧ n1 = 0 ∧ n2 = 2)
       | _, _, _ => false
     | _ => false) = true := by
  decide +kernel

/-- A delta decoded into pieces, after something else. -/
example :
    (match ({} : Decoder).callsTo pieceClass [[0x78]]
        [.start [], .chunk [0xD6, 0xC3, 0xC4, 0x53, 0, 0, 29, 20, 0, 0, 24, 0, 6, 0x61, 0x62, 0x63, 0x64, 0x65], .chunk [6, 0x66, 0x67, 0x68, 0x69, 0x6A]] with
     | .ok (r, o, _) => decide (r = [true, true, true] ∧ o = [[0x78], [0x61, 0x62, 0x63, 0x64, 0x65], [0x66, 0x67, 0x68, 0x69, 0x6A]])
     | .error _ => false) = true := by
  decide +kernel

/-- `VCDiffEncoder` and `VCDiffDecoder` with pieces: what was there before is gone. -/
example :
    (match ({ dictionary := [0x61, 0x62] } : SimpleEncoder).encodeTo pieceClass [0x62, 0x61] [[0x78]] with
     | .ok (r, o, n, _) =>
       (match ({} : Decoder).decodeToClass pieceClass [0x61, 0x62] o.flatten [[0x79], [0x7A]] with
        | .ok (r2, o2, _) => decide (r = true ∧ n = 0 ∧ r2 = true ∧ o2 = [[0x62, 0x61]])
        | .error _ => false)
     | .error _ => false) = true := by
  decide +kernel

end Vcd.Props
