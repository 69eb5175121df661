import Verif.Model.Main
import Verif.Proof.Deliver
import Verif.Proof.Cli
import Verif.Spec.Main

/-! Lemmas about the command and its files. -/

namespace Vcd.Cli
open Spec

theorem System.put_files_ne {s : System} {name x : String} {c : Bytes} (h : x ≠ name) :
    (s.put name c).files x = s.files x := by
  unfold System.put
  split
  · rfl
  · simp only [if_neg h]

theorem System.put_put (s : System) (name : String) (c c' : Bytes) : (s.put name c).put name c' = s.put name c' := by
  unfold System.put
  by_cases h : name = ""
  · simp only [if_pos h]
  · simp only [if_neg h, System.mk.injEq, and_self, and_true]
    funext x
    split <;> rfl

theorem System.put_input {s : System} {name inName : String} (h : inName = "" ∨ inName ≠ name) (c : Bytes) :
    (s.put name c).input inName = s.input inName := by
  unfold System.input
  by_cases hi : inName = ""
  · simp only [if_pos hi]
    unfold System.put
    split <;> rfl
  · simp only [if_neg hi]
    rw [System.put_files_ne (h.resolve_left hi)]

theorem OutFile.disk_prefix (t : Trouble) (f : OutFile) : f.disk t <+: f.given := by
  unfold OutFile.disk
  split <;> exact List.take_prefix _ _

/-- What `WriteOutput` does. -/
theorem writeOutput_spec {t : Trouble} {base sys sys' : System} {out out' : OutFile} {data : Bytes} {ok : Bool}
    (h : sys = base.put out.name (out.disk t)) (hw : writeOutput t sys out data = (sys', out', ok)) :
    sys' = base.put out'.name (out'.disk t) ∧ out'.name = out.name ∧ out'.given = out.given ++ data ∧
      (t.space out.name = none → ok = true) := by
  unfold writeOutput at hw
  by_cases h0 : data = []
  · rw [if_pos h0] at hw
    simp only [Prod.mk.injEq] at hw
    obtain ⟨rfl, rfl, rfl⟩ := hw
    exact ⟨h, rfl, by rw [h0, List.append_nil], fun _ => rfl⟩
  · rw [if_neg h0] at hw
    simp only [Prod.mk.injEq] at hw
    obtain ⟨rfl, rfl, rfl⟩ := hw
    refine ⟨?_, rfl, rfl, fun hs => ?_⟩
    · rw [h, System.put_put]
    · simp [OutFile.full, hs]

theorem fread_spec {t : Trouble} {s : System} {f f' : InFile} {n : Nat} {data : Bytes}
    (h : f.fread t s n = some (data, f')) (ho : f.offset ≤ (s.input f.name).length) :
    data = ((s.input f.name).drop f.offset).take n ∧ f'.name = f.name ∧ f'.offset = f.offset + data.length ∧
      f'.offset ≤ (s.input f.name).length ∧ (f'.eof = true → f.eof = true ∨ f'.offset = (s.input f.name).length) ∧
      (f'.eof = false → f'.offset = f.offset + n) := by
  unfold InFile.fread at h
  simp only at h
  split at h
  · simp at h
  · simp only [Option.some.injEq, Prod.mk.injEq] at h
    obtain ⟨rfl, rfl⟩ := h
    refine ⟨rfl, rfl, rfl, ?_, ?_, ?_⟩
    · simp only [List.length_take, List.length_drop]; omega
    · simp only [Bool.or_eq_true, decide_eq_true_eq, List.length_take, List.length_drop]
      rintro (h | h)
      · exact Or.inl h
      · right; omega
    · simp only [Bool.or_eq_false_iff, decide_eq_false_iff_not, List.length_take, List.length_drop]
      rintro ⟨_, h⟩; omega

theorem fread_some {t : Trouble} {f : InFile} (h : t.damage f.name = none) (s : System) (n : Nat) :
    ∃ data f', f.fread t s n = some (data, f') := by
  unfold InFile.fread
  simp only [InFile.bad, h, Bool.false_eq_true, if_false]
  exact ⟨_, _, rfl⟩

/-- `P` holds if the loop goes on or has ended, `Q` if the function returns false. -/
def Turn.Sat {σ : Type} (P Q : Stage σ → Prop) : Turn σ → Prop
  | .next st => P st
  | .last st => P st ∧ st.input.eof = true
  | .fail st => Q st

theorem turns_inv {σ : Type} {turn : Stage σ → Except Fault (Turn σ)} {P Q : Stage σ → Prop}
    (h : ∀ st r, P st → turn st = .ok r → r.Sat P Q)
    {n : Nat} {st : Stage σ} {r : Turn σ} (hp : P st) (hr : turns turn n st = .ok r) : r.Sat P Q := by
  induction n generalizing st with
  | zero =>
    simp only [turns, Except.ok.injEq] at hr
    subst hr
    exact hp
  | succ n ih =>
    simp only [turns] at hr
    cases ht : turn st with
    | error f => rw [ht] at hr; simp at hr
    | ok r1 =>
      rw [ht] at hr
      have h1 := h st r1 hp ht
      cases r1 with
      | next st1 => exact ih h1 hr
      | last st1 => simp only [Except.ok.injEq] at hr; subst hr; exact h1
      | fail st1 => simp only [Except.ok.injEq] at hr; subst hr; exact h1

/-- If every turn succeeds and those that are not the last one read at least a byte, the loop comes to its end. -/
theorem turns_end {σ : Type} {turn : Stage σ → Except Fault (Turn σ)} {P : Stage σ → Prop} {len : Nat}
    (h : ∀ st, P st → (∃ st', turn st = .ok (.next st') ∧ P st' ∧ st.input.offset < st'.input.offset ∧ st'.input.offset ≤ len) ∨
      ∃ st', turn st = .ok (.last st') ∧ P st')
    {n : Nat} {st : Stage σ} (hp : P st) (hn : len - st.input.offset < n) :
    ∃ st', turns turn n st = .ok (.last st') ∧ P st' := by
  induction n generalizing st with
  | zero => omega
  | succ n ih =>
    simp only [turns]
    rcases h st hp with ⟨st', h1, h2, h3, h4⟩ | ⟨st', h1, h2⟩
    · rw [h1]
      simp only
      exact ih h2 (by omega)
    · rw [h1]
      exact ⟨st', rfl, h2⟩

theorem again_stage {σ : Type} (st : Stage σ) :
    (st.input.eof = true ∧ st.again = .last st) ∨ (st.input.eof = false ∧ st.again = .next st) := by
  unfold Stage.again
  cases h : st.input.eof
  · exact Or.inr ⟨rfl, by simp⟩
  · exact Or.inl ⟨rfl, by simp⟩

/-- The loop of `Decode` between two turns. -/
structure DecAt (t : Trouble) (base : System) (inName outName : String) (c : Bytes) (d0 : Decoder)
    (st : Stage Decoder) (cs : List Bytes) : Prop where
  sys : st.sys = base.put st.out.name (st.out.disk t)
  oname : st.out.name = outName
  iname : st.input.name = inName
  read : cs.flatten = c.take st.input.offset
  off : st.input.offset ≤ c.length
  fed : d0.feed cs = some (st.out.given, st.coder)
  eof : st.input.eof = true → st.input.offset = c.length

/-- `Decode` is going to return false. -/
structure DecFail (t : Trouble) (base : System) (outName : String) (c : Bytes) (d0 : Decoder) (st : Stage Decoder) : Prop where
  sys : st.sys = base.put st.out.name (st.out.disk t)
  oname : st.out.name = outName
  fed : ∃ cs d', cs.flatten <+: c ∧ d0.feed cs = some (st.out.given, d')

theorem feed_snoc {d d1 d2 : Decoder} {cs : List Bytes} {data o1 o2 : Bytes} (h1 : d.feed cs = some (o1, d1))
    (h2 : d1.call (.chunk data) = .ok (⟨true, o2⟩, d2)) : d.feed (cs ++ [data]) = some (o1 ++ o2, d2) := by
  rw [feed_append]
  refine ⟨d1, o1, o2, h1, ?_, rfl⟩
  have := call_chunk_ok.1 h2
  simp only [Decoder.feed, this, List.append_nil]

section
variable {t : Trouble} {base : System} {inName outName : String} {c : Bytes}

theorem take_add {c : Bytes} {k n : Nat} : c.take k ++ (c.drop k).take n = c.take (k + ((c.drop k).take n).length) := by
  rw [List.take_add]
  congr 1
  simp only [List.length_take, List.length_drop]
  by_cases h : n ≤ c.length - k
  · rw [Nat.min_eq_left h]
  · rw [Nat.min_eq_right (by omega), List.take_of_length_le (by simp; omega), List.take_of_length_le (by simp)]

theorem DecAt.turn {d0 : Decoder} (hin : ∀ x, (base.put outName x).input inName = c) {size : Nat} {st : Stage Decoder}
    {cs : List Bytes} (h : DecAt t base inName outName c d0 st cs) {r : Turn Decoder} (hr : decodeTurn t size st = .ok r) :
    match r with
    | .next st' => (∃ cs', DecAt t base inName outName c d0 st' cs') ∧ st'.input.offset = st.input.offset + size
    | .last st' => (∃ cs', DecAt t base inName outName c d0 st' cs') ∧ st'.input.eof = true
    | .fail st' => DecFail t base outName c d0 st' := by
  have hc : st.sys.input st.input.name = c := by rw [h.sys, h.oname, h.iname, hin]
  unfold decodeTurn at hr
  cases hf : st.input.fread t st.sys size with
  | none =>
    rw [hf] at hr
    simp only [Except.ok.injEq] at hr
    subst hr
    exact ⟨h.sys, h.oname, cs, st.coder, by rw [h.read]; exact List.take_prefix _ _, h.fed⟩
  | some p =>
    obtain ⟨data, input⟩ := p
    rw [hf] at hr
    simp only at hr
    obtain ⟨f1, f2, f3, f4, f5, f6⟩ := fread_spec hf (by rw [hc]; exact h.off)
    rw [hc] at f1 f4 f5
    have hread : cs.flatten ++ data = c.take input.offset := by rw [h.read, f3, f1, take_add]
    have heof : input.eof = true → input.offset = c.length := by
      intro he
      rcases f5 he with h1 | h1
      · have := h.eof h1; omega
      · exact h1
    by_cases h0 : data = []
    · rw [if_pos h0] at hr
      have hA : DecAt t base inName outName c d0 { st with input } cs :=
        ⟨h.sys, h.oname, by simp only [f2, h.iname], by rw [h0, List.append_nil] at hread; exact hread, f4, h.fed, heof⟩
      rcases again_stage { st with input } with ⟨e1, e2⟩ | ⟨e1, e2⟩
      · rw [e2] at hr
        simp only [Except.ok.injEq] at hr
        subst hr
        exact ⟨⟨cs, hA⟩, e1⟩
      · rw [e2] at hr
        simp only [Except.ok.injEq] at hr
        subst hr
        exact ⟨⟨cs, hA⟩, f6 e1⟩
    · rw [if_neg h0] at hr
      cases hcall : st.coder.call (.chunk data) with
      | error f => rw [hcall] at hr; simp at hr
      | ok p =>
        obtain ⟨rep, coder⟩ := p
        obtain ⟨ret, ro⟩ := rep
        rw [hcall] at hr
        simp only at hr
        cases ret with
        | false =>
          simp only [if_true, Except.ok.injEq] at hr
          subst hr
          exact ⟨h.sys, h.oname, cs, st.coder, by rw [h.read]; exact List.take_prefix _ _, h.fed⟩
        | true =>
          simp only [Bool.true_eq_false, if_false] at hr
          cases hw : writeOutput t st.sys st.out ro with
          | mk sys p =>
            obtain ⟨out, ok⟩ := p
            rw [hw] at hr
            simp only at hr
            obtain ⟨w1, w2, w3, w4⟩ := writeOutput_spec h.sys hw
            have hfed : d0.feed (cs ++ [data]) = some (out.given, coder) := by rw [w3]; exact feed_snoc h.fed hcall
            have hread' : (cs ++ [data]).flatten = c.take input.offset := by simpa using hread
            cases ok with
            | false =>
              simp only [if_true, Except.ok.injEq] at hr
              subst hr
              exact ⟨w1, by simp only [w2, h.oname], cs ++ [data], coder, by rw [hread']; exact List.take_prefix _ _, hfed⟩
            | true =>
              simp only [Bool.true_eq_false, if_false] at hr
              have hA : DecAt t base inName outName c d0 { sys, input, coder, pending := st.pending, out } (cs ++ [data]) :=
                ⟨w1, by simp only [w2, h.oname], by simp only [f2, h.iname], hread', f4, hfed, heof⟩
              rcases again_stage { sys, input, coder, pending := st.pending, out : Stage Decoder } with ⟨e1, e2⟩ | ⟨e1, e2⟩
              · rw [e2] at hr
                simp only [Except.ok.injEq] at hr
                subst hr
                exact ⟨⟨_, hA⟩, e1⟩
              · rw [e2] at hr
                simp only [Except.ok.injEq] at hr
                subst hr
                exact ⟨⟨_, hA⟩, f6 e1⟩

/-- Without trouble, a turn of `Decode` succeeds as long as the library does. -/
theorem DecAt.succeeds {d0 : Decoder} (hin : ∀ x, (base.put outName x).input inName = c) {size : Nat} {st : Stage Decoder}
    {cs : List Bytes} (h : DecAt t base inName outName c d0 st cs) (hd : t.damage inName = none) (hs : t.space outName = none)
    (hlib : ∀ cs, cs.flatten <+: c → d0.feed cs ≠ none) :
    ∃ r, decodeTurn t size st = .ok r ∧ ∀ st', r ≠ .fail st' := by
  have hc : st.sys.input st.input.name = c := by rw [h.sys, h.oname, h.iname, hin]
  unfold decodeTurn
  obtain ⟨data, input, hf⟩ := fread_some (t := t) (f := st.input) (by rw [h.iname]; exact hd) st.sys size
  rw [hf]
  simp only
  obtain ⟨f1, f2, f3, f4, f5, f6⟩ := fread_spec hf (by rw [hc]; exact h.off)
  rw [hc] at f1 f4 f5
  have hread : cs.flatten ++ data = c.take input.offset := by rw [h.read, f3, f1, take_add]
  have hagain : ∀ (st : Stage Decoder) st', st.again ≠ .fail st' := by
    intro st st' he
    rcases again_stage st with ⟨_, e2⟩ | ⟨_, e2⟩ <;> rw [e2] at he <;> simp at he
  by_cases h0 : data = []
  · rw [if_pos h0]
    exact ⟨_, rfl, hagain _⟩
  · rw [if_neg h0]
    have hne := hlib (cs ++ [data]) (by
      have : (cs ++ [data]).flatten = c.take input.offset := by simpa using hread
      rw [this]; exact List.take_prefix _ _)
    cases hfe : d0.feed (cs ++ [data]) with
    | none => exact absurd hfe hne
    | some p =>
      obtain ⟨o, d2⟩ := p
      obtain ⟨d1, o1, o2, k1, k2, rfl⟩ := feed_append.1 hfe
      rw [h.fed] at k1
      simp only [Option.some.injEq, Prod.mk.injEq] at k1
      obtain ⟨rfl, rfl⟩ := k1
      simp only [Decoder.feed, Decoder.call] at k2 ⊢
      cases hch : st.coder.decodeChunk data with
      | fault f => rw [hch] at k2; simp at k2
      | error L o => rw [hch] at k2; simp at k2
      | ok L nested o =>
        simp only [Bool.true_eq_false, if_false]
        cases hw : writeOutput t st.sys st.out o with
        | mk sys p =>
          obtain ⟨out, ok⟩ := p
          obtain ⟨_, _, _, w4⟩ := writeOutput_spec h.sys hw
          have := w4 (by rw [h.oname]; exact hs)
          subst this
          simp only [Bool.true_eq_false, if_false]
          exact ⟨_, rfl, hagain _⟩

theorem cut_one {n : Nat} {cs : List Bytes} (h : CutEvery n cs) (hl : cs.flatten.length ≤ n) : cs.dropLast = [] := by
  rcases List.eq_nil_or_concat cs with rfl | ⟨xs, x, rfl⟩
  · rfl
  · rw [List.concat_eq_append] at h hl ⊢
    rw [List.dropLast_concat]
    cases xs with
    | nil => rfl
    | cons y ys =>
      exfalso
      have h1 := h.2 y (by rw [List.dropLast_concat]; simp)
      have h2 := List.length_pos_iff.2 (h.1 x (by simp)).1
      simp only [List.flatten_append, List.cons_append, List.flatten_cons, List.length_append, List.flatten_nil, List.append_nil] at hl
      omega

theorem _root_.Vcd.Spec.CutEvery.grow {n size : Nat} {cs : List Bytes} (h : CutEvery size cs) (hle : size ≤ n)
    (hs : size = n ∨ size = min cs.flatten.length n) : CutEvery n cs := by
  refine ⟨fun x hx => ⟨(h.1 x hx).1, Nat.le_trans (h.1 x hx).2 hle⟩, ?_⟩
  by_cases hn : size = n
  · rw [← hn]; exact h.2
  · have hl : cs.flatten.length ≤ size := by omega
    rw [cut_one h hl]
    simp

/-- The loop of `Encode` between two turns. -/
structure EncAt (t : Trouble) (base : System) (inName outName : String) (c : Bytes) (e0 : Encoder) (h0 : Bytes) (size : Nat)
    (st : Stage Encoder) (cs : List Bytes) : Prop where
  sys : st.sys = base.put st.out.name (st.out.disk t)
  oname : st.out.name = outName
  iname : st.input.name = inName
  read : cs.flatten = c.take st.input.offset
  off : st.input.offset ≤ c.length
  eof : st.input.eof = true → st.input.offset = c.length
  sizes : ∀ x ∈ cs, x.length ≤ size
  cut : CutEvery size cs
  whole : st.input.offset < c.length → ∀ x ∈ cs, x.length = size
  called : ∃ rs, e0.calls (cs.map .chunk) = .ok (rs, st.coder) ∧ (∀ r ∈ rs, r.ret = true) ∧
    st.out.given ++ st.pending = h0 ++ rs.flatMap (·.out)

/-- `Encode` is going to return false. -/
structure EncFail (t : Trouble) (base : System) (outName : String) (c : Bytes) (e0 : Encoder) (h0 : Bytes) (size : Nat)
    (st : Stage Encoder) : Prop where
  sys : st.sys = base.put st.out.name (st.out.disk t)
  oname : st.out.name = outName
  called : ∃ (cs : List Bytes) (rs : List EncoderReply) (e' : Encoder), cs.flatten <+: c ∧ (∀ x ∈ cs, x.length ≤ size) ∧ e0.calls (cs.map .chunk) = .ok (rs, e') ∧
    (∀ r ∈ rs, r.ret = true) ∧ st.out.given <+: h0 ++ rs.flatMap (·.out)

theorem encoder_snoc {e e1 e2 : Encoder} {cs : List EncoderCall} {c : EncoderCall} {rs : List EncoderReply} {r : EncoderReply}
    (h1 : e.calls cs = .ok (rs, e1)) (h2 : e1.call c = .ok (r, e2)) : e.calls (cs ++ [c]) = .ok (rs ++ [r], e2) := by
  induction cs generalizing e rs with
  | nil =>
    simp only [Encoder.calls, Except.ok.injEq, Prod.mk.injEq] at h1
    obtain ⟨rfl, rfl⟩ := h1
    simp only [List.nil_append, Encoder.calls, h2]
  | cons x cs ih =>
    simp only [List.cons_append, Encoder.calls] at h1 ⊢
    cases hx : e.call x with
    | error f => rw [hx] at h1; simp at h1
    | ok p =>
      obtain ⟨r1, e'⟩ := p
      rw [hx] at h1
      simp only at h1 ⊢
      cases hcs : e'.calls cs with
      | error f => rw [hcs] at h1; simp at h1
      | ok p =>
        obtain ⟨rs1, e3⟩ := p
        rw [hcs] at h1
        simp only [Except.ok.injEq, Prod.mk.injEq] at h1
        obtain ⟨rfl, rfl⟩ := h1
        rw [ih hcs]
        rfl

theorem EncAt.turn {e0 : Encoder} {h0 : Bytes} (hin : ∀ x, (base.put outName x).input inName = c) {size : Nat}
    {st : Stage Encoder} {cs : List Bytes} (h : EncAt t base inName outName c e0 h0 size st cs) {r : Turn Encoder}
    (hr : encodeTurn t size st = .ok r) :
    match r with
    | .next st' => (∃ cs', EncAt t base inName outName c e0 h0 size st' cs') ∧ st'.input.offset = st.input.offset + size
    | .last st' => (∃ cs', EncAt t base inName outName c e0 h0 size st' cs') ∧ st'.input.eof = true
    | .fail st' => EncFail t base outName c e0 h0 size st' := by
  obtain ⟨rs, k1, k2, k3⟩ := h.called
  unfold encodeTurn at hr
  cases hw : writeOutput t st.sys st.out st.pending with
  | mk sys p =>
    obtain ⟨out, ok⟩ := p
    rw [hw] at hr
    simp only at hr
    obtain ⟨w1, w2, w3, w4⟩ := writeOutput_spec h.sys hw
    have hgiven : out.given = h0 ++ rs.flatMap (·.out) := by rw [w3, k3]
    have hoff : out.name = outName := by rw [w2, h.oname]
    have hfail : ∀ (st' : Stage Encoder), st'.sys = sys → st'.out = out → EncFail t base outName c e0 h0 size st' :=
      fun st' e1 e2 => ⟨by rw [e1, e2]; exact w1, by rw [e2]; exact hoff, cs, rs, st.coder, by rw [h.read]; exact List.take_prefix _ _,
        h.sizes, k1, k2, by rw [e2, hgiven]; exact List.prefix_refl _⟩
    cases ok with
    | false =>
      simp only [if_true, Except.ok.injEq] at hr
      subst hr
      exact hfail _ rfl rfl
    | true =>
      simp only [Bool.true_eq_false, if_false] at hr
      have hc : sys.input st.input.name = c := by rw [w1, hoff, h.iname, hin]
      cases hf : st.input.fread t sys size with
      | none =>
        rw [hf] at hr
        simp only [Except.ok.injEq] at hr
        subst hr
        exact hfail _ rfl rfl
      | some p =>
        obtain ⟨data, input⟩ := p
        rw [hf] at hr
        simp only at hr
        obtain ⟨f1, f2, f3, f4, f5, f6⟩ := fread_spec hf (by rw [hc]; exact h.off)
        rw [hc] at f1 f4 f5
        have hread : cs.flatten ++ data = c.take input.offset := by rw [h.read, f3, f1, take_add]
        have heof : input.eof = true → input.offset = c.length := by
          intro he
          rcases f5 he with h1 | h1
          · have := h.eof h1; omega
          · exact h1
        by_cases hd0 : data = []
        · rw [if_pos hd0] at hr
          have hA : EncAt t base inName outName c e0 h0 size { sys, input, coder := st.coder, pending := [], out } cs :=
            ⟨w1, hoff, by simp only [f2, h.iname], by rw [hd0, List.append_nil] at hread; exact hread, f4, heof, h.sizes,
              h.cut, fun hlt => h.whole (by simp only [f3, hd0, List.length_nil, Nat.add_zero] at hlt; exact hlt), rs, k1, k2, by rw [List.append_nil]; exact hgiven⟩
          rcases again_stage { sys, input, coder := st.coder, pending := [], out : Stage Encoder } with ⟨e1, e2⟩ | ⟨e1, e2⟩
          · rw [e2] at hr
            simp only [Except.ok.injEq] at hr
            subst hr
            exact ⟨⟨cs, hA⟩, e1⟩
          · rw [e2] at hr
            simp only [Except.ok.injEq] at hr
            subst hr
            exact ⟨⟨cs, hA⟩, f6 e1⟩
        · rw [if_neg hd0] at hr
          cases hcall : st.coder.call (.chunk data) with
          | error f => rw [hcall] at hr; simp at hr
          | ok p =>
            obtain ⟨rep, coder⟩ := p
            rw [hcall] at hr
            simp only at hr
            by_cases hret : rep.ret = false
            · rw [if_pos hret] at hr
              simp only [Except.ok.injEq] at hr
              subst hr
              exact hfail _ rfl rfl
            · rw [if_neg hret] at hr
              have hA : EncAt t base inName outName c e0 h0 size { sys, input, coder, pending := rep.out, out } (cs ++ [data]) := by
                refine ⟨w1, hoff, by simp only [f2, h.iname], by simpa using hread, f4, heof, ?_, ?_, ?_, rs ++ [rep], ?_, ?_, ?_⟩
                · intro x hx
                  rcases List.mem_append.1 hx with hx | hx
                  · exact h.sizes x hx
                  · simp only [List.mem_singleton] at hx
                    rw [hx, f1]
                    simp only [List.length_take]
                    omega
                · refine ⟨?_, ?_⟩
                  · intro x hx
                    rcases List.mem_append.1 hx with hx | hx
                    · exact h.cut.1 x hx
                    · simp only [List.mem_singleton] at hx
                      refine ⟨by rw [hx]; exact hd0, ?_⟩
                      rw [hx, f1]
                      simp only [List.length_take]
                      omega
                  · rw [List.dropLast_concat]
                    have := List.length_pos_iff.2 hd0
                    exact h.whole (by omega)
                · intro hlt x hx
                  rcases List.mem_append.1 hx with hx | hx
                  · simp only at hlt
                    exact h.whole (by omega) x hx
                  · simp only [List.mem_singleton] at hx
                    simp only at hlt
                    have hl := congrArg List.length f1
                    simp only [List.length_take, List.length_drop] at hl
                    rw [hx]
                    omega
                · rw [List.map_append]; exact encoder_snoc k1 hcall
                · intro x hx
                  rcases List.mem_append.1 hx with hx | hx
                  · exact k2 x hx
                  · simp only [List.mem_singleton] at hx
                    rw [hx]; simpa using hret
                · simp [hgiven]
              rcases again_stage { sys, input, coder, pending := rep.out, out : Stage Encoder } with ⟨e1, e2⟩ | ⟨e1, e2⟩
              · rw [e2] at hr
                simp only [Except.ok.injEq] at hr
                subst hr
                exact ⟨⟨_, hA⟩, e1⟩
              · rw [e2] at hr
                simp only [Except.ok.injEq] at hr
                subst hr
                exact ⟨⟨_, hA⟩, f6 e1⟩

/-- Without trouble, a turn of `Encode` succeeds as long as the library does. -/
theorem EncAt.succeeds {e0 : Encoder} {h0 : Bytes} (hin : ∀ x, (base.put outName x).input inName = c) {size : Nat}
    {st : Stage Encoder} {cs : List Bytes} (h : EncAt t base inName outName c e0 h0 size st cs)
    (hd : t.damage inName = none) (hs : t.space outName = none)
    (hlib : ∀ cs : List Bytes, cs.flatten <+: c → (∀ x ∈ cs, x.length ≤ min size c.length) →
      ∃ rs e', e0.calls (cs.map .chunk) = .ok (rs, e') ∧ ∀ r ∈ rs, r.ret = true) :
    ∃ r, encodeTurn t size st = .ok r ∧ ∀ st', r ≠ .fail st' := by
  obtain ⟨rs, k1, k2, k3⟩ := h.called
  unfold encodeTurn
  cases hw : writeOutput t st.sys st.out st.pending with
  | mk sys p =>
    obtain ⟨out, ok⟩ := p
    simp only
    obtain ⟨w1, w2, w3, w4⟩ := writeOutput_spec h.sys hw
    have := w4 (by rw [h.oname]; exact hs)
    subst this
    simp only [Bool.true_eq_false, if_false]
    have hc : sys.input st.input.name = c := by rw [w1, w2, h.oname, h.iname, hin]
    obtain ⟨data, input, hf⟩ := fread_some (t := t) (f := st.input) (by rw [h.iname]; exact hd) sys size
    rw [hf]
    simp only
    obtain ⟨f1, f2, f3, f4, f5, f6⟩ := fread_spec hf (by rw [hc]; exact h.off)
    rw [hc] at f1 f4 f5
    have hagain : ∀ (st : Stage Encoder) st', st.again ≠ .fail st' := by
      intro st st' he
      rcases again_stage st with ⟨_, e2⟩ | ⟨_, e2⟩ <;> rw [e2] at he <;> simp at he
    by_cases hd0 : data = []
    · rw [if_pos hd0]
      exact ⟨_, rfl, hagain _⟩
    · rw [if_neg hd0]
      obtain ⟨rs2, e2, l1, l2⟩ := hlib (cs ++ [data]) (by
        simp only [List.flatten_append, List.flatten_cons, List.flatten_nil, List.append_nil]
        rw [h.read, f1, take_add]
        exact List.take_prefix _ _) (by
        intro x hx
        rcases List.mem_append.1 hx with hx | hx
        · have h1 := h.sizes x hx
          have h2 : x.length ≤ cs.flatten.length := by
            obtain ⟨a, b, e⟩ := List.append_of_mem hx
            rw [e]
            simp only [List.flatten_append, List.flatten_cons, List.length_append]
            omega
          rw [h.read, List.length_take] at h2
          omega
        · simp only [List.mem_singleton] at hx
          rw [hx, f1]
          simp only [List.length_take, List.length_drop]
          omega)
      rw [List.map_append] at l1
      cases hcall : st.coder.call (.chunk data) with
      | error f =>
        exfalso
        have key : ∀ (e : Encoder) (as : List EncoderCall) (rs : List EncoderReply), e.calls as = .ok (rs, st.coder) →
            e.calls (as ++ [.chunk data]) = .error f := by
          intro e as
          induction as generalizing e with
          | nil =>
            intro rs hx
            simp only [Encoder.calls, Except.ok.injEq, Prod.mk.injEq] at hx
            rw [hx.2]
            simp only [List.nil_append, Encoder.calls, hcall]
          | cons a as ih =>
            intro rs hx
            simp only [List.cons_append, Encoder.calls] at hx ⊢
            cases ha : e.call a with
            | error f => rw [ha] at hx; simp at hx
            | ok p =>
              obtain ⟨r1, e'⟩ := p
              rw [ha] at hx
              simp only at hx ⊢
              cases hcs : e'.calls as with
              | error f => rw [hcs] at hx; simp at hx
              | ok p =>
                rw [hcs] at hx
                simp only [Except.ok.injEq, Prod.mk.injEq] at hx
                obtain ⟨_, hx2⟩ := hx
                rw [ih e' p.1 (by rw [hcs, ← hx2])]
        have := key e0 _ _ k1
        rw [show [EncoderCall.chunk data] = List.map EncoderCall.chunk [data] from rfl, l1] at this
        simp at this
      | ok p =>
        obtain ⟨rep, coder⟩ := p
        have := encoder_snoc k1 hcall
        rw [show [EncoderCall.chunk data] = List.map EncoderCall.chunk [data] from rfl, l1] at this
        simp only [Except.ok.injEq, Prod.mk.injEq] at this
        have hret : rep.ret = true := l2 rep (by rw [this.1]; simp)
        simp only [hret, Bool.true_eq_false, if_false]
        exact ⟨_, rfl, hagain _⟩

end

end Vcd.Cli
