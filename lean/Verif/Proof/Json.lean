import Verif.Spec.Json
import Verif.Spec.Encoder
import Verif.Proof.Encoder
import Verif.Props.Engine

/-! Lemmas about the JSON writer. -/

namespace Vcd
open Spec

namespace JsonWriter

/-! ## Strings -/

theorem escapeByte_ok (c : UInt8) (h : c < 0x80) : JsonChar (escapeByte c) c := by
  unfold escapeByte
  split
  · next h => subst h; exact .short (by decide)
  split
  · next h => subst h; exact .short (by decide)
  split
  · next h => subst h; exact .short (by decide)
  split
  · next h => subst h; exact .short (by decide)
  split
  · next h => subst h; exact .short (by decide)
  split
  · next h => subst h; exact .short (by decide)
  split
  · next h => subst h; exact .short (by decide)
  have hn : c.toNat < 128 := UInt8.lt_iff_toNat_lt.1 h
  split
  · have hd : ∀ k, k < 16 → HexDigit (hexDigit k) k := by
      intro k hk
      match k, hk with
      | 0, _ => exact .digit (c := 0x30) (by decide) (by decide)
      | 1, _ => exact .digit (c := 0x31) (by decide) (by decide)
      | 2, _ => exact .digit (c := 0x32) (by decide) (by decide)
      | 3, _ => exact .digit (c := 0x33) (by decide) (by decide)
      | 4, _ => exact .digit (c := 0x34) (by decide) (by decide)
      | 5, _ => exact .digit (c := 0x35) (by decide) (by decide)
      | 6, _ => exact .digit (c := 0x36) (by decide) (by decide)
      | 7, _ => exact .digit (c := 0x37) (by decide) (by decide)
      | 8, _ => exact .digit (c := 0x38) (by decide) (by decide)
      | 9, _ => exact .digit (c := 0x39) (by decide) (by decide)
      | 10, _ => exact .lower (c := 0x61) (by decide) (by decide)
      | 11, _ => exact .lower (c := 0x62) (by decide) (by decide)
      | 12, _ => exact .lower (c := 0x63) (by decide) (by decide)
      | 13, _ => exact .lower (c := 0x64) (by decide) (by decide)
      | 14, _ => exact .lower (c := 0x65) (by decide) (by decide)
      | 15, _ => exact .lower (c := 0x66) (by decide) (by decide)
      | k + 16, hk => omega
    exact .unicode (hd 0 (by omega)) (hd 0 (by omega)) (hd _ (by omega)) (hd _ (by omega)) (by omega) h
  · next h1 h2 _ _ _ _ _ h3 =>
    have h4 : ¬ c < 32 := fun hc => h3 (Or.inl hc)
    exact .plain (UInt8.not_lt.1 h4) h h1 h2

theorem escape_ok (s : Bytes) (h : Ascii s) : JsonChars (escape s) s := by
  induction s with
  | nil => exact .nil
  | cons c s ih =>
    simp only [escape, List.flatMap_cons]
    exact .cons (escapeByte_ok c (h c (List.mem_cons_self ..))) (ih (fun x hx => h x (List.mem_cons_of_mem _ hx)))

/-! ## Numbers -/

theorem digit_toNat (n : Nat) : (UInt8.ofNat (0x30 + n % 10)).toNat = 0x30 + n % 10 := by
  rw [UInt8.toNat_ofNat']
  omega

theorem decimalLoop_append (fuel n : Nat) (acc : Bytes) :
    decimalLoop fuel n acc = decimalLoop fuel n [] ++ acc := by
  induction fuel generalizing n acc with
  | zero => rfl
  | succ fuel ih =>
    simp only [decimalLoop]
    split
    · rfl
    · rw [ih, ih (n / 10) [_], List.append_assoc]; rfl

theorem decimalValue_append (a : Bytes) (c : UInt8) :
    decimalValue (a ++ [c]) = 10 * decimalValue a + (c.toNat - 0x30) := by
  simp [decimalValue]

theorem decimalLoop_ok {fuel n : Nat} (h : n < fuel) :
    decimalLoop fuel n [] ≠ [] ∧ (∀ c ∈ decimalLoop fuel n [], 0x30 ≤ c ∧ c ≤ 0x39) ∧
    decimalValue (decimalLoop fuel n []) = n ∧
    ((decimalLoop fuel n []).head? = some 0x30 → n = 0 ∧ decimalLoop fuel n [] = [0x30]) := by
  induction fuel generalizing n with
  | zero => omega
  | succ fuel ih =>
    have hdig : (0x30 : UInt8) ≤ UInt8.ofNat (0x30 + n % 10) ∧ UInt8.ofNat (0x30 + n % 10) ≤ 0x39 := by
      constructor
      · rw [UInt8.le_iff_toNat_le, digit_toNat]; show 48 ≤ _; omega
      · rw [UInt8.le_iff_toNat_le, digit_toNat]; show _ ≤ 57; omega
    simp only [decimalLoop]
    by_cases h0 : n / 10 = 0
    · simp only [if_pos h0]
      refine ⟨by simp, by simpa using hdig, ?_, ?_⟩
      · simp only [decimalValue, List.foldl_cons, List.foldl_nil, digit_toNat]; omega
      · intro hh
        simp only [List.head?_cons, Option.some.injEq] at hh
        have := congrArg UInt8.toNat hh
        rw [digit_toNat] at this
        have h1 : (0x30 : UInt8).toNat = 48 := rfl
        rw [h1] at this
        exact ⟨by omega, by rw [hh]⟩
    · simp only [if_neg h0]
      rw [decimalLoop_append]
      obtain ⟨i1, i2, i3, i4⟩ := ih (n := n / 10) (by omega)
      refine ⟨by simp, ?_, ?_, ?_⟩
      · intro c hc
        rcases List.mem_append.1 hc with hc | hc
        · exact i2 c hc
        · simp only [List.mem_cons, List.not_mem_nil, or_false] at hc
          subst hc; exact hdig
      · rw [decimalValue_append, i3, digit_toNat]; omega
      · intro hh
        exfalso
        cases hl : decimalLoop fuel (n / 10) [] with
        | nil => exact i1 hl
        | cons c cs =>
          rw [hl] at hh i4
          simp only [List.cons_append, List.head?_cons] at hh
          exact h0 (i4 hh).1

theorem decimal_ok (n : Nat) : JsonText (decimal n) (.num n) := by
  obtain ⟨h1, h2, h3, h4⟩ := decimalLoop_ok (Nat.lt_succ_self n)
  have := JsonText.num h1 h2 (fun h => (h4 h).2)
  rw [h3] at this
  exact this

/-! ## Instructions -/

/-- What is written for an instruction, without the leading comma. -/
def opText : Op → Bytes
  | .add s => [0x22] ++ escape s ++ [0x22]
  | .copy a n => decimal a ++ [0x2C] ++ decimal n
  | .run b n => [0x22] ++ List.replicate n b ++ [0x22]

/-- What is written for a list of instructions. -/
def opsText : List Op → Bytes
  | [] => []
  | [op] => opText op
  | op :: ops => opText op ++ [0x2C] ++ opsText ops

/-- The values that stand for instructions. -/
def opValues : List Op → List JsonValue
  | [] => []
  | .add s :: ops => .str s :: opValues ops
  | .copy a n :: ops => .num a :: .num n :: opValues ops
  | .run b n :: ops => .str (List.replicate n b) :: opValues ops

/-- Instructions the JSON writer gets right. -/
def Writable : Op → Prop
  | .add s => Ascii s
  | .copy _ _ => True
  | .run _ _ => False

theorem jsonOps_opValues (ops : List Op) (h : ∀ op ∈ ops, Writable op) : jsonOps (opValues ops) = some ops := by
  induction ops with
  | nil => rfl
  | cons op ops ih =>
    have := ih (fun o ho => h o (List.mem_cons_of_mem _ ho))
    cases op with
    | add s => simp [opValues, jsonOps, this]
    | copy a n => simp [opValues, jsonOps, this]
    | run b n => exact absurd (h _ (List.mem_cons_self ..)) (by simp [Writable])

theorem opValues_append (a b : List Op) : opValues (a ++ b) = opValues a ++ opValues b := by
  induction a with
  | nil => rfl
  | cons op a ih => cases op <;> simp [opValues, ih]

theorem _root_.Vcd.Spec.JsonItems.append {t u : Bytes} {vs ws : List JsonValue} (h1 : JsonItems t vs) (h2 : JsonItems u ws) :
    JsonItems (t ++ [0x2C] ++ u) (vs ++ ws) := by
  induction h1 with
  | one h => exact .cons h h2
  | @cons t ts v vs h _ ih =>
    have := JsonItems.cons h ih
    rw [List.cons_append]
    have e : t ++ [0x2C] ++ ts ++ [0x2C] ++ u = t ++ [0x2C] ++ (ts ++ [0x2C] ++ u) := by simp
    rw [e]
    exact this

theorem opText_ok (op : Op) (h : Writable op) : JsonItems (opText op) (opValues [op]) := by
  cases op with
  | add s => exact .one (.str (escape_ok s h))
  | copy a n => exact .cons (decimal_ok a) (.one (decimal_ok n))
  | run b n => exact absurd h (by simp [Writable])

theorem opsText_ok (ops : List Op) (hne : ops ≠ []) (h : ∀ op ∈ ops, Writable op) :
    JsonItems (opsText ops) (opValues ops) := by
  induction ops with
  | nil => exact absurd rfl hne
  | cons op ops ih =>
    cases ops with
    | nil => exact opText_ok op (h op (List.mem_cons_self ..))
    | cons op' ops =>
      have h1 := opText_ok op (h op (List.mem_cons_self ..))
      have h2 := ih (by simp) (fun o ho => h o (List.mem_cons_of_mem _ ho))
      have := h1.append h2
      rw [← opValues_append] at this
      exact this

theorem calls_append (w : JsonWriter) (a b : List CoderCall) :
    w.calls (a ++ b) = ((w.calls a).1 ++ ((w.calls a).2.calls b).1, ((w.calls a).2.calls b).2) := by
  induction a generalizing w with
  | nil => simp [calls]
  | cons c a ih => simp [calls, ih]

theorem call_op (w : JsonWriter) (op : Op) : w.call op.call = ([], w.push (opText op)) := by
  cases op with
  | add s => rfl
  | copy a n =>
    simp only [Op.call, call, copy, opText, decimalInt]
    have h : ¬ (a : Int) < 0 := by omega
    simp only [h, if_false, Int.toNat_natCast]
  | run b n => rfl

/-- Writing instructions that follow others. -/
theorem calls_more (w : JsonWriter) (h : w.opcodeAdded = true) (ops : List Op) (hne : ops ≠ []) :
    w.calls (ops.map Op.call) = ([], { w with output := w.output ++ [0x2C] ++ opsText ops }) := by
  induction ops generalizing w with
  | nil => exact absurd rfl hne
  | cons op ops ih =>
    simp only [List.map_cons, calls, call_op, List.nil_append]
    cases ops with
    | nil =>
      simp only [List.map_nil, calls, push, h, if_true, opsText]
    | cons op' ops =>
      rw [ih (w.push (opText op)) rfl (by simp)]
      simp only [push, h, if_true, opsText]
      cases w; simp_all

/-- Writing instructions and `Output`. -/
theorem calls_ops (w : JsonWriter) (ops : List Op) (hne : ops ≠ []) :
    w.calls (ops.map Op.call ++ [.output]) =
      (w.output ++ (if w.opcodeAdded then [0x2C] else []) ++ opsText ops,
        { output := [], outputCalled := true, opcodeAdded := true }) := by
  have key : w.calls (ops.map Op.call) =
      ([], { w with output := w.output ++ (if w.opcodeAdded then [0x2C] else []) ++ opsText ops, opcodeAdded := true }) := by
    cases ops with
    | nil => exact absurd rfl hne
    | cons op ops =>
      simp only [List.map_cons, calls, call_op, List.nil_append]
      cases ops with
      | nil => simp only [List.map_nil, calls, push, opsText]
      | cons op' ops =>
        rw [calls_more (w.push (opText op)) rfl (op' :: ops) (by simp)]
        simp only [push, opsText]
        simp
  rw [calls_append, key]
  simp [calls, call, flush]

end JsonWriter

/-! ## The instructions for an ASCII chunk -/

theorem Whole.writable {dict target : Bytes} {matching : Bool} {ops : List Op} (h : Engine.Whole dict target matching ops)
    (hd : Ascii dict) (ht : Ascii target) : ∀ op ∈ ops, JsonWriter.Writable op := by
  intro op ho
  obtain ⟨pre, post, e⟩ := List.append_of_mem ho
  have he := h.emittable pre op post e
  cases op with
  | add s =>
    intro c hc
    have : (execOps dict pre ++ s) <+: dict ++ target := by
      rw [← h.exec, e]
      have : execOps dict (pre ++ Op.add s :: post) = execOps (execOps dict pre ++ s) post := by
        simp [execOps, Op.apply]
      rw [this]
      exact execOps_prefix _ _
    have hm := this.subset (List.mem_append_right _ hc)
    rcases List.mem_append.1 hm with hm | hm
    · exact hd c hm
    · exact ht c hm
  | run b n => exact absurd he (by simp [Emittable])
  | copy a n => trivial

theorem isAscii_iff (s : Bytes) : JsonWriter.isAscii s = true ↔ Ascii s := by
  simp [JsonWriter.isAscii, Ascii]

/-! ## The encoder -/

namespace Encoder

/-- The text of the instructions for a chunk. -/
def jsonItems (e0 : Encoder) (data : Bytes) : Bytes :=
  match e0.engine.encode e0.lookForTargetMatches data with
  | .error _ => []
  | .ok calls => (({ opcodeAdded := false } : JsonWriter).calls calls).1

/-- An encoder in the JSON format between calls. -/
structure JInv (e0 : Encoder) (fresh used : Bool) (e : Encoder) : Prop where
  engine : e.engine = e0.engine
  matching : e.lookForTargetMatches = e0.lookForTargetMatches
  coder : ∃ w, e.coder = .json w ∧ w.outputCalled = used ∧
    (e.allowed = true → w.output = (if fresh then [0x5B] else []) ∧ w.opcodeAdded = !fresh)

theorem jstart_ok {e0 e : Encoder} {fresh used : Bool} (hd : Ascii e0.engine.dictionary) (h : JInv e0 fresh used e) :
    ∃ e', e.call .start = .ok (⟨true, []⟩, e') ∧ JInv e0 true used e' ∧ e'.allowed = true := by
  obtain ⟨h1, h2, w, h3, h4, h5⟩ := h
  refine ⟨{ e with coder := .json w.init, allowed := true }, ?_, ⟨h1, h2, w.init, rfl, h4, fun _ => ⟨rfl, rfl⟩⟩, rfl⟩
  simp only [call, start, h3, h1, (isAscii_iff _).2 hd, if_true, Except.map]

theorem jfinish_ok {e0 e : Encoder} {fresh used : Bool} (h : JInv e0 fresh used e) :
    ∃ e', e.call .finish = .ok (⟨e.allowed, if e.allowed && used then [0x5D] else []⟩, e') ∧ JInv e0 fresh used e' ∧
      e'.allowed = false := by
  obtain ⟨h1, h2, w, h3, h4, h5⟩ := h
  cases ha : e.allowed
  · exact ⟨e, by simp [call, finish, ha], ⟨h1, h2, w, h3, h4, h5⟩, ha⟩
  · refine ⟨{ e with allowed := false }, ?_, ⟨h1, h2, w, h3, h4, fun hc => by cases hc⟩, rfl⟩
    simp [call, finish, ha, h3, JsonWriter.finish, h4]

/-- What `jsonItems` is. -/
theorem jsonItems_spec {e0 : Encoder} {dict : Bytes} (he : Engine.init dict = .ok (some e0.engine))
    {data : Bytes} (hlen : dict.length + data.length < 2 ^ 31) (hne : data ≠ []) :
    ∃ ops, e0.engine.encode e0.lookForTargetMatches data = .ok (ops.map Op.call ++ [.output]) ∧ ops ≠ [] ∧
      Engine.Whole dict data e0.lookForTargetMatches ops ∧ jsonItems e0 data = JsonWriter.opsText ops := by
  obtain ⟨e, ops, k1, k2, k3, k4⟩ := Engine.encode_whole (dict := dict) (target := data)
    (matching := e0.lookForTargetMatches) (by simp only [int32Max]; omega) hne
  rw [he] at k1
  injection k1 with k1
  injection k1 with k1
  subst k1
  have hnil : ops ≠ [] := by
    rintro rfl
    have := k4.exec
    simp [execOps] at this
    exact hne this
  refine ⟨ops, k3, hnil, k4, ?_⟩
  simp [jsonItems, k3, JsonWriter.calls_ops _ ops hnil]

theorem jchunk_ok {e0 e : Encoder} {dict : Bytes} {fresh used : Bool} (he : Engine.init dict = .ok (some e0.engine))
    (h : JInv e0 fresh used e) (ha : e.allowed = true) {data : Bytes} (hlen : dict.length + data.length < 2 ^ 31)
    (hne : data ≠ []) (hasc : JsonWriter.isAscii data = true) :
    ∃ e', e.call (.chunk data) = .ok (⟨true, (if fresh then [0x5B] else [0x2C]) ++ jsonItems e0 data⟩, e') ∧
      JInv e0 false true e' ∧ e'.allowed = true := by
  obtain ⟨h1, h2, w, h3, h4, h5⟩ := h
  obtain ⟨ops, k1, k2, _, k4⟩ := jsonItems_spec he hlen hne
  obtain ⟨h6, h7⟩ := h5 ha
  refine ⟨{ e with coder := .json { output := [], outputCalled := true, opcodeAdded := true } }, ?_,
    ⟨h1, h2, _, rfl, rfl, fun _ => ⟨rfl, rfl⟩⟩, ha⟩
  simp only [call, chunk, ha, h3, hasc, h1, h2, k1, Except.map, JsonWriter.calls_ops _ ops k2, h6, h7, k4, Bool.not_true,
    Bool.false_eq_true, if_false]
  cases fresh <;> simp

theorem jempty_ok {e0 e : Encoder} {dict : Bytes} {fresh used : Bool} (he : Engine.init dict = .ok (some e0.engine))
    (hlen : dict.length < 2 ^ 31)
    (h : JInv e0 fresh used e) (ha : e.allowed = true) : e.call (.chunk []) = .ok (⟨true, []⟩, e) := by
  obtain ⟨h1, h2, w, h3, h4, h5⟩ := h
  obtain ⟨e1, k1, k2⟩ := Props.engine_ignores_empty dict e0.lookForTargetMatches hlen
  rw [he] at k1
  injection k1 with k1
  injection k1 with k1
  subst k1
  have hnil : JsonWriter.isAscii [] = true := rfl
  simp only [call, chunk, ha, h3, hnil, h1, h2, k2, Except.map, JsonWriter.calls, Bool.not_true,
    Bool.false_eq_true, if_false]
  cases e
  simp_all

theorem jrefused_ok {e0 e : Encoder} {fresh used : Bool} (h : JInv e0 fresh used e) (ha : e.allowed = true) {data : Bytes}
    (hasc : JsonWriter.isAscii data = false) : e.call (.chunk data) = .ok (⟨false, []⟩, e) := by
  obtain ⟨h1, h2, w, h3, h4, h5⟩ := h
  simp [call, chunk, ha, h3, hasc, Except.map]

theorem jcalls_ok {e0 e : Encoder} {dict : Bytes} {fresh used : Bool} (he : Engine.init dict = .ok (some e0.engine))
    (hde : e0.engine.dictionary = dict) (hd : Ascii dict) (hdl : dict.length < 2 ^ 31)
    (h : JInv e0 fresh used e) {cs : List EncoderCall}
    (hs : EachChunk (fun data => dict.length + data.length < 2 ^ 31) cs) :
    ∃ e', e.calls cs = .ok (jsonProtocol (jsonItems e0) e.allowed fresh used cs, e') := by
  induction cs generalizing e fresh used with
  | nil => exact ⟨e, by cases e.allowed <;> rfl⟩
  | cons c cs ih =>
    have hs' : EachChunk (fun data => dict.length + data.length < 2 ^ 31) cs :=
      fun data hm => hs data (List.mem_cons_of_mem _ hm)
    cases c with
    | start =>
      obtain ⟨e1, k1, k2, k3⟩ := jstart_ok (by rw [hde]; exact hd) h
      obtain ⟨e2, j1⟩ := ih k2 hs'
      rw [k3] at j1
      refine ⟨e2, ?_⟩
      simp only [calls, k1, j1]
      cases e.allowed <;> rfl
    | chunk data =>
      cases ha : e.allowed
      · obtain ⟨e2, j1⟩ := ih h hs'
        rw [ha] at j1
        exact ⟨e2, by simp only [calls, chunk_refused ha, j1]; rfl⟩
      · simp only [jsonProtocol]
        have hall : (List.all data fun x => decide (x < 128)) = JsonWriter.isAscii data := rfl
        rw [hall]
        by_cases hasc : JsonWriter.isAscii data = true
        · rw [if_pos hasc]
          by_cases hne : data = []
          · rw [if_pos hne]
            subst hne
            obtain ⟨e2, j1⟩ := ih h hs'
            rw [ha] at j1
            exact ⟨e2, by simp only [calls, jempty_ok he hdl h ha, j1]⟩
          · rw [if_neg hne]
            obtain ⟨e1, k1, k2, k3⟩ := jchunk_ok he h ha (hs data (List.mem_cons_self ..)) hne hasc
            obtain ⟨e2, j1⟩ := ih k2 hs'
            rw [k3] at j1
            exact ⟨e2, by simp only [calls, k1, j1]⟩
        · rw [if_neg hasc]
          obtain ⟨e2, j1⟩ := ih h hs'
          rw [ha] at j1
          exact ⟨e2, by simp only [calls, jrefused_ok h ha (by simpa using hasc), j1]⟩
    | finish =>
      obtain ⟨e1, k1, k2, k3⟩ := jfinish_ok h
      obtain ⟨e2, j1⟩ := ih k2 hs'
      rw [k3] at j1
      refine ⟨e2, ?_⟩
      simp only [calls, k1, j1]
      cases e.allowed
      · simp [jsonProtocol]
      · simp [jsonProtocol]

theorem new_jinv {engine : Engine} {flags : Nat} {matching : Bool} (hj : flags &&& 4 ≠ 0) :
    JInv (Encoder.new engine flags matching) true false (Encoder.new engine flags matching) := by
  refine ⟨rfl, rfl, {}, ?_, rfl, fun h => by cases h⟩
  simp [Encoder.new, createWriter, hj]

end Encoder

/-! ## Reading JSON has one result -/

theorem Spec.HexDigit.unique {c : UInt8} {i j : Nat} (h1 : HexDigit c i) (h2 : HexDigit c j) : i = j := by
  have key : ∀ a b : UInt8, a ≤ b ↔ a.toNat ≤ b.toNat := fun a b => UInt8.le_iff_toNat_le
  have e1 : (0x30 : UInt8).toNat = 48 := rfl
  have e2 : (0x39 : UInt8).toNat = 57 := rfl
  have e3 : (0x61 : UInt8).toNat = 97 := rfl
  have e4 : (0x66 : UInt8).toNat = 102 := rfl
  have e5 : (0x41 : UInt8).toNat = 65 := rfl
  have e6 : (0x46 : UInt8).toNat = 70 := rfl
  cases h1 <;> cases h2 <;> simp only [key, e1, e2, e3, e4, e5, e6] at * <;> omega

theorem Spec.JsonChar.head {t : Bytes} {c : UInt8} (h : JsonChar t c) : ∃ x r, t = x :: r ∧ x ≠ 0x22 ∧ 0x20 ≤ x := by
  cases h with
  | plain h1 _ h3 _ => exact ⟨_, _, rfl, h3, h1⟩
  | short _ => exact ⟨_, _, rfl, by decide, by decide⟩
  | unicode => exact ⟨_, _, rfl, by decide, by decide⟩

theorem Spec.JsonChar.unique {t t' r r' : Bytes} {c c' : UInt8} (h1 : JsonChar t c) (h2 : JsonChar t' c')
    (e : t ++ r = t' ++ r') : t = t' ∧ c = c' ∧ r = r' := by
  have hu : ∀ c : UInt8, (0x75, c) ∉ shortEscapes := by
    intro c hc
    simp [shortEscapes] at hc
  cases h1 with
  | plain a1 a2 a3 a4 =>
    cases h2 with
    | plain b1 b2 b3 b4 => simp at e; simp [e]
    | short b => simp at e; exact absurd e.1 a4
    | unicode => simp at e; exact absurd e.1 a4
  | short a =>
    cases h2 with
    | plain b1 b2 b3 b4 => simp at e; exact absurd e.1.symm b4
    | @short e2 c2 b =>
      simp only [List.cons_append, List.nil_append, List.cons.injEq, true_and] at e
      obtain ⟨e1, e2⟩ := e
      subst e1
      refine ⟨rfl, ?_, e2⟩
      simp only [shortEscapes, List.mem_cons, Prod.mk.injEq, List.not_mem_nil, or_false] at a b
      rcases a with a | a | a | a | a | a | a | a <;> rcases b with b | b | b | b | b | b | b | b <;>
        first
          | exact a.2.trans b.2.symm
          | exact absurd (a.1.symm.trans b.1) (by decide)
    | unicode =>
      simp only [List.cons_append, List.nil_append, List.cons.injEq, true_and] at e
      rw [e.1] at a
      exact absurd a (hu _)
  | unicode a1 a2 a3 a4 a5 a6 =>
    cases h2 with
    | plain b1 b2 b3 b4 => simp at e; exact absurd e.1.symm b4
    | short b =>
      simp only [List.cons_append, List.nil_append, List.cons.injEq, true_and] at e
      rw [← e.1] at b
      exact absurd b (hu _)
    | unicode b1 b2 b3 b4 b5 b6 =>
      simp only [List.cons_append, List.nil_append, List.cons.injEq, true_and] at e
      obtain ⟨rfl, rfl, rfl, rfl, rfl⟩ := e
      rw [Spec.HexDigit.unique a1 b1, Spec.HexDigit.unique a2 b2, Spec.HexDigit.unique a3 b3, Spec.HexDigit.unique a4 b4] at a5
      exact ⟨rfl, UInt8.toNat_inj.1 (a5.trans b5.symm), rfl⟩

theorem Spec.JsonChars.unique {t t' r r' s s' : Bytes} (h1 : JsonChars t s) (h2 : JsonChars t' s')
    (e : t ++ 0x22 :: r = t' ++ 0x22 :: r') : t = t' ∧ s = s' ∧ r = r' := by
  induction h1 generalizing t' s' with
  | nil =>
    cases h2 with
    | nil => simpa using e
    | cons hc _ =>
      obtain ⟨x, y, k1, k2, _⟩ := hc.head
      rw [k1] at e
      simp at e
      exact absurd e.1.symm k2
  | cons hc hcs ih =>
    cases h2 with
    | nil =>
      obtain ⟨x, y, k1, k2, _⟩ := hc.head
      rw [k1] at e
      simp at e
      exact absurd e.1 k2
    | cons hc' hcs' =>
      rw [List.append_assoc, List.append_assoc] at e
      obtain ⟨k1, k2, k3⟩ := hc.unique hc' e
      obtain ⟨j1, j2, j3⟩ := ih hcs' k3
      subst k1; subst k2; subst j1; subst j2
      exact ⟨rfl, rfl, j3⟩

/-- What follows a value: a comma or the closing bracket. -/
def Follows (r : Bytes) : Prop := ∃ x r', r = x :: r' ∧ (x = 0x2C ∨ x = 0x5D)

theorem digits_unique {a b r r' : Bytes} (ha : ∀ c ∈ a, (0x30 : UInt8) ≤ c ∧ c ≤ 0x39) (hb : ∀ c ∈ b, (0x30 : UInt8) ≤ c ∧ c ≤ 0x39)
    (hr : Follows r) (hr' : Follows r') (e : a ++ r = b ++ r') : a = b ∧ r = r' := by
  have hnd : ∀ x : UInt8, (x = 0x2C ∨ x = 0x5D) → ¬ ((0x30 : UInt8) ≤ x ∧ x ≤ 0x39) := by
    rintro x (rfl | rfl) <;> decide
  induction a generalizing b with
  | nil =>
    cases b with
    | nil => exact ⟨rfl, by simpa using e⟩
    | cons c b =>
      obtain ⟨x, y, rfl, hx⟩ := hr
      simp at e
      exact absurd (hb c (List.mem_cons_self ..)) (hnd c (e.1 ▸ hx))
  | cons c a ih =>
    cases b with
    | nil =>
      obtain ⟨x, y, rfl, hx⟩ := hr'
      simp at e
      exact absurd (ha c (List.mem_cons_self ..)) (hnd c (e.1.symm ▸ hx))
    | cons d b =>
      simp only [List.cons_append, List.cons.injEq] at e
      obtain ⟨j1, j2⟩ := ih (fun c hc => ha c (List.mem_cons_of_mem _ hc)) (b := b)
        (fun c hc => hb c (List.mem_cons_of_mem _ hc)) e.2
      exact ⟨by rw [e.1, j1], j2⟩

theorem Spec.JsonText.unique {t t' r r' : Bytes} {v v' : JsonValue} (h1 : JsonText t v) (h2 : JsonText t' v')
    (hr : Follows r) (hr' : Follows r') (e : t ++ r = t' ++ r') : t = t' ∧ v = v' ∧ r = r' := by
  have hq : ¬ ((0x30 : UInt8) ≤ 0x22 ∧ (0x22 : UInt8) ≤ 0x39) := by decide
  cases h1 with
  | str a =>
    cases h2 with
    | str b =>
      simp only [List.cons_append, List.nil_append, List.append_assoc, List.cons.injEq, true_and] at e
      obtain ⟨k1, k2, k3⟩ := a.unique b e
      subst k1; subst k2
      exact ⟨rfl, rfl, k3⟩
    | num b1 b2 b3 =>
      cases t' with
      | nil => exact absurd rfl b1
      | cons c t' =>
        simp at e
        have := b2 c (List.mem_cons_self ..)
        rw [← e.1] at this
        exact absurd this hq
  | num a1 a2 a3 =>
    cases h2 with
    | str b =>
      cases t with
      | nil => exact absurd rfl a1
      | cons c t =>
        simp at e
        have := a2 c (List.mem_cons_self ..)
        rw [e.1] at this
        exact absurd this hq
    | num b1 b2 b3 =>
      obtain ⟨k1, k2⟩ := digits_unique a2 b2 hr hr' e
      subst k1
      exact ⟨rfl, rfl, k2⟩

theorem Spec.JsonItems.unique {t t' : Bytes} {vs ws : List JsonValue} (h1 : JsonItems t vs) (h2 : JsonItems t' ws)
    (e : t ++ [0x5D] = t' ++ [0x5D]) : vs = ws := by
  have f1 : Follows [0x5D] := ⟨_, _, rfl, Or.inr rfl⟩
  have f2 : ∀ r : Bytes, Follows (0x2C :: r) := fun r => ⟨_, _, rfl, Or.inl rfl⟩
  induction h1 generalizing t' ws with
  | one a =>
    cases h2 with
    | one b => rw [(a.unique b f1 f1 e).2.1]
    | cons b _ =>
      simp only [List.append_assoc, List.cons_append, List.nil_append] at e
      have := (a.unique b f1 (f2 _) e).2.2
      simp at this
  | cons a _ ih =>
    cases h2 with
    | one b =>
      simp only [List.append_assoc, List.cons_append, List.nil_append] at e
      have := (a.unique b (f2 _) f1 e).2.2
      simp at this
    | cons b bs =>
      simp only [List.append_assoc, List.cons_append, List.nil_append] at e
      obtain ⟨_, k2, k3⟩ := a.unique b (f2 _) (f2 _) e
      rw [k2, ih bs (by simpa using k3)]

theorem Spec.JsonItems.nonempty {t : Bytes} {vs : List JsonValue} (h : JsonItems t vs) : ∃ x r, t = x :: r ∧ x ≠ 0x5D := by
  have key : ∀ {t : Bytes} {v : JsonValue}, JsonText t v → ∃ x r, t = x :: r ∧ x ≠ 0x5D := by
    intro t v h
    cases h with
    | str _ => exact ⟨_, _, rfl, by decide⟩
    | num h1 h2 _ =>
      cases t with
      | nil => exact absurd rfl h1
      | cons c t =>
        refine ⟨c, t, rfl, ?_⟩
        rintro rfl
        exact absurd (h2 _ (List.mem_cons_self ..)) (by decide)
  cases h with
  | one h => exact key h
  | cons h _ =>
    obtain ⟨x, r, rfl, hx⟩ := key h
    exact ⟨x, _, rfl, hx⟩

/-- No control characters in a document. -/
theorem Spec.JsonItems.printable {t : Bytes} {vs : List JsonValue} (h : JsonItems t vs) : ∀ c ∈ t, (0x20 : UInt8) ≤ c := by
  have hle : ∀ a b c : UInt8, a ≤ b → b ≤ c → a ≤ c := fun a b c h1 h2 => UInt8.le_trans h1 h2
  have hx : ∀ {c : UInt8} {i : Nat}, HexDigit c i → (0x20 : UInt8) ≤ c := by
    intro c i h
    cases h with
    | digit h _ => exact hle _ _ _ (by decide) h
    | lower h _ => exact hle _ _ _ (by decide) h
    | upper h _ => exact hle _ _ _ (by decide) h
  have h1 : ∀ {t : Bytes} {c : UInt8}, JsonChar t c → ∀ x ∈ t, (0x20 : UInt8) ≤ x := by
    intro t c h x hm
    cases h with
    | plain h _ _ _ => simp at hm; subst hm; exact h
    | @short e c h =>
      simp only [List.mem_cons, List.not_mem_nil, or_false] at hm
      rcases hm with rfl | rfl
      · decide
      · simp only [shortEscapes, List.mem_cons, Prod.mk.injEq, List.not_mem_nil, or_false] at h
        rcases h with h | h | h | h | h | h | h | h <;> (rw [h.1]; decide)
    | unicode a b c d _ _ =>
      simp only [List.mem_cons, List.not_mem_nil, or_false] at hm
      rcases hm with rfl | rfl | rfl | rfl | rfl | rfl
      · decide
      · decide
      · exact hx a
      · exact hx b
      · exact hx c
      · exact hx d
  have h2 : ∀ {t s : Bytes}, JsonChars t s → ∀ x ∈ t, (0x20 : UInt8) ≤ x := by
    intro t s h
    induction h with
    | nil => simp
    | cons hc _ ih =>
      intro x hm
      rcases List.mem_append.1 hm with hm | hm
      · exact h1 hc x hm
      · exact ih x hm
  have h3 : ∀ {t : Bytes} {v : JsonValue}, JsonText t v → ∀ x ∈ t, (0x20 : UInt8) ≤ x := by
    intro t v h x hm
    cases h with
    | str h =>
      simp only [List.mem_append, List.mem_cons, List.not_mem_nil, or_false] at hm
      rcases hm with (rfl | hm) | rfl
      · decide
      · exact h2 h x hm
      · decide
    | num _ h _ => exact hle _ _ _ (by decide) (h x hm).1
  induction h with
  | one h => exact h3 h
  | cons h _ ih =>
    intro x hm
    simp only [List.mem_append, List.mem_cons, List.not_mem_nil, or_false] at hm
    rcases hm with (hm | rfl) | hm
    · exact h3 h x hm
    · decide
    · exact ih x hm

theorem jsonOps_append {vs ws : List JsonValue} {ops ops' : List Op} (h1 : jsonOps vs = some ops) (h2 : jsonOps ws = some ops') :
    jsonOps (vs ++ ws) = some (ops ++ ops') := by
  induction hn : vs.length using Nat.strongRecOn generalizing vs ops with
  | _ n ih =>
    match vs, hn with
    | [], _ =>
      simp only [jsonOps, Option.some.injEq] at h1
      subst h1
      exact h2
    | .str s :: vs, hn =>
      simp only [jsonOps, Option.map_eq_some_iff] at h1
      obtain ⟨o, k1, rfl⟩ := h1
      simp only [List.cons_append, jsonOps]
      rw [ih vs.length (by simp only [List.length_cons] at hn; omega) k1 rfl]
      rfl
    | [.num a], _ => simp [jsonOps] at h1
    | .num a :: .str s :: vs, _ => simp [jsonOps] at h1
    | .num a :: .num b :: vs, hn =>
      simp only [jsonOps, Option.map_eq_some_iff] at h1
      obtain ⟨o, k1, rfl⟩ := h1
      simp only [List.cons_append, jsonOps]
      rw [ih vs.length (by simp only [List.length_cons] at hn; omega) k1 rfl]
      rfl

/-- Instructions whose COPYs lie inside `dict` do the same after something has been appended to it. -/
theorem execOps_dict {dict : Bytes} {ops : List Op}
    (h : ∀ op ∈ ops, ∀ a n, op = .copy a n → a + n ≤ dict.length) :
    ∃ y, ∀ x, execOps (dict ++ x) ops = dict ++ x ++ y := by
  have hext : ∀ (n a : Nat), a + n ≤ dict.length → ∀ x, extend (dict ++ x) a n = dict ++ x ++ (dict.drop a).take n := by
    intro n
    induction n with
    | zero => intro a _ x; simp [extend]
    | succ n ih =>
      intro a ha x
      simp only [extend]
      rw [List.append_assoc, ih (a + 1) (by omega)]
      have e1 : (dict ++ x).getD a 0 = dict[a] := by
        rw [List.getD_eq_getElem?_getD, List.getElem?_append_left (by omega), List.getElem?_eq_getElem (by omega)]; rfl
      rw [e1, List.drop_eq_getElem_cons (i := a) (by omega), List.take_succ_cons]
      simp
  induction ops with
  | nil => exact ⟨[], fun x => by simp [execOps]⟩
  | cons op ops ih =>
    obtain ⟨y, hy⟩ := ih (fun o ho => h o (List.mem_cons_of_mem _ ho))
    have h1 : ∃ z, ∀ x, op.apply (dict ++ x) = dict ++ (x ++ z) := by
      cases op with
      | add s => exact ⟨s, fun x => by simp [Op.apply]⟩
      | run b n => exact ⟨List.replicate n b, fun x => by simp [Op.apply]⟩
      | copy a n =>
        have := h _ (List.mem_cons_self ..) a n rfl
        exact ⟨(dict.drop a).take n, fun x => by rw [Op.apply, hext n a this, List.append_assoc]⟩
    obtain ⟨z, hz⟩ := h1
    refine ⟨z ++ y, fun x => ?_⟩
    have : execOps (dict ++ x) (op :: ops) = execOps (op.apply (dict ++ x)) ops := rfl
    rw [this, hz, hy]
    simp

end Vcd
