import Verif.Proof.Api
import Verif.Spec.Decoder

/-!
# Histories of decodes
-/

namespace Vcd
open Spec

/-! ### Call sequences -/

theorem calls_nil (d : Decoder) : d.calls [] = .ok ([], d) := rfl

theorem calls_cons {d d1 : Decoder} {c : DecoderCall} {r : DecoderReply} (h : d.call c = .ok (r, d1))
    (cs : List DecoderCall) :
    d.calls (c :: cs) = match d1.calls cs with
      | .error f => .error f
      | .ok (rs, d2) => .ok (r :: rs, d2) := by
  rw [Decoder.calls, h]
  rfl

theorem calls_cons_ok {d d2 : Decoder} {c : DecoderCall} {cs : List DecoderCall} {rs : List DecoderReply}
    (h : d.calls (c :: cs) = .ok (rs, d2)) :
    ∃ r d1 rs', d.call c = .ok (r, d1) ∧ d1.calls cs = .ok (rs', d2) ∧ rs = r :: rs' := by
  unfold Decoder.calls at h
  cases h1 : d.call c with
  | error f => simp [h1] at h
  | ok p =>
    obtain ⟨r, d1⟩ := p
    simp only [h1] at h
    cases h2 : d1.calls cs with
    | error f => simp [h2] at h
    | ok q =>
      obtain ⟨rs', d2'⟩ := q
      simp only [h2, Except.ok.injEq, Prod.mk.injEq] at h
      obtain ⟨rfl, rfl⟩ := h
      exact ⟨r, d1, rs', rfl, h2, rfl⟩

theorem calls_cons_error {d : Decoder} {c : DecoderCall} {cs : List DecoderCall} {f : Fault}
    (h : d.calls (c :: cs) = .error f) :
    d.call c = .error f ∨ ∃ r d1, d.call c = .ok (r, d1) ∧ d1.calls cs = .error f := by
  unfold Decoder.calls at h
  cases h1 : d.call c with
  | error f =>
    simp only [h1, Except.error.injEq] at h
    subst h
    exact Or.inl rfl
  | ok p =>
    obtain ⟨r, d1⟩ := p
    simp only [h1] at h
    cases h2 : d1.calls cs with
    | error f =>
      simp only [h2, Except.error.injEq] at h
      subst h
      exact Or.inr ⟨r, d1, rfl, h2⟩
    | ok q => simp [h2] at h

theorem calls_length {d d' : Decoder} {cs : List DecoderCall} {rs : List DecoderReply}
    (h : d.calls cs = .ok (rs, d')) : rs.length = cs.length := by
  induction cs generalizing d rs with
  | nil =>
    simp only [Decoder.calls, Except.ok.injEq, Prod.mk.injEq] at h
    rw [← h.1]
    rfl
  | cons c cs ih =>
    obtain ⟨r, d1, rs', _, h2, rfl⟩ := calls_cons_ok h
    simp [ih h2]

theorem calls_append {d d2 : Decoder} {cs cs' : List DecoderCall} {rs : List DecoderReply}
    (h : d.calls (cs ++ cs') = .ok (rs, d2)) :
    ∃ rs1 d1 rs2, d.calls cs = .ok (rs1, d1) ∧ d1.calls cs' = .ok (rs2, d2) ∧ rs = rs1 ++ rs2 := by
  induction cs generalizing d rs with
  | nil => exact ⟨[], d, rs, rfl, h, rfl⟩
  | cons c cs ih =>
    obtain ⟨r, d1, rs', h1, h2, rfl⟩ := calls_cons_ok h
    obtain ⟨rs1, d3, rs2, h3, h4, rfl⟩ := ih h2
    refine ⟨r :: rs1, d3, rs2, ?_, h4, rfl⟩
    rw [calls_cons h1, h3]

theorem calls_append_error {d : Decoder} {cs cs' : List DecoderCall} {f : Fault}
    (h : d.calls (cs ++ cs') = .error f) :
    d.calls cs = .error f ∨ ∃ rs1 d1, d.calls cs = .ok (rs1, d1) ∧ d1.calls cs' = .error f := by
  induction cs generalizing d with
  | nil => exact Or.inr ⟨[], d, rfl, h⟩
  | cons c cs ih =>
    rcases calls_cons_error h with h1 | ⟨r, d1, h1, h2⟩
    · left
      rw [Decoder.calls, h1]
    · rcases ih h2 with h3 | ⟨rs1, d3, h3, h4⟩
      · left
        rw [calls_cons h1, h3]
      · exact Or.inr ⟨r :: rs1, d3, by rw [calls_cons h1, h3], h4⟩

theorem calls_append_of {d d1 d2 : Decoder} {cs cs' : List DecoderCall} {rs1 rs2 : List DecoderReply}
    (h1 : d.calls cs = .ok (rs1, d1)) (h2 : d1.calls cs' = .ok (rs2, d2)) :
    d.calls (cs ++ cs') = .ok (rs1 ++ rs2, d2) := by
  induction cs generalizing d rs1 with
  | nil =>
    simp only [Decoder.calls, Except.ok.injEq, Prod.mk.injEq] at h1
    obtain ⟨rfl, rfl⟩ := h1
    exact h2
  | cons c cs ih =>
    obtain ⟨r, d3, rs', h3, h4, rfl⟩ := calls_cons_ok h1
    rw [List.cons_append, calls_cons h3, ih h4]
    rfl

/-! ### A decoder that is not decoding -/

theorem chunk_stopped {d : Decoder} (h : d.top.started = false) (data : Bytes) :
    d.call (.chunk data) = .ok (⟨false, []⟩, { top := d.top.reset, nested := [] }) := by
  simp only [Decoder.call, decodeChunk_eq]
  rw [chunkRun_eq, chunkStep, if_pos h]

/-- Without `StartDecoding`, a decoder that is not decoding stays so, and chunks and `FinishDecoding`
fail. -/
theorem stopped_call {d : Decoder} (h : d.top.started = false) {c : DecoderCall} (hc : ∀ dict, c ≠ .start dict) :
    ∃ r d', d.call c = .ok (r, d') ∧ d'.top.started = false ∧ r.out = [] ∧
      ((∃ data, c = .chunk data) ∨ c = .finish → r.ret = false) := by
  cases c with
  | start dict => exact absurd rfl (hc dict)
  | chunk data => exact ⟨_, _, chunk_stopped h data, rfl, rfl, fun _ => rfl⟩
  | finish =>
    refine ⟨_, _, rfl, rfl, rfl, fun _ => ?_⟩
    simp [Decoder.finish, h]
  | setMaxFile n => exact ⟨_, _, rfl, h, rfl, by simp⟩
  | setMaxWin n =>
    refine ⟨_, _, rfl, ?_, rfl, by simp⟩
    unfold Decoder.setMaxWin
    split <;> exact h
  | setAllowTarget b =>
    refine ⟨_, _, rfl, ?_, rfl, by simp⟩
    unfold Decoder.setAllowTarget
    split <;> exact h

theorem stopped_calls {d : Decoder} (h : d.top.started = false) {cs : List DecoderCall}
    (hc : ∀ c ∈ cs, ∀ dict, c ≠ .start dict) :
    ∃ rs d', d.calls cs = .ok (rs, d') ∧ d'.top.started = false ∧ allOut rs = [] ∧
      ∀ p ∈ cs.zip rs, p.2.out = [] ∧ ((∃ data, p.1 = .chunk data) ∨ p.1 = .finish → p.2.ret = false) := by
  induction cs generalizing d with
  | nil => exact ⟨[], d, rfl, h, rfl, by simp⟩
  | cons c cs ih =>
    obtain ⟨r, d1, h1, h2, h3, h4⟩ := stopped_call h (hc c (by simp))
    obtain ⟨rs, d2, h5, h6, h7, h8⟩ := ih h2 (fun c hc' => hc c (by simp [hc']))
    refine ⟨r :: rs, d2, ?_, h6, ?_, ?_⟩
    · rw [calls_cons h1, h5]
    · simp [allOut, h3] at h7 ⊢
      exact h7
    · intro p hp
      simp only [List.zip_cons_cons, List.mem_cons] at hp
      rcases hp with rfl | hp
      · exact ⟨h3, h4⟩
      · exact h8 p hp

/-! ### Files without a custom code table -/

theorem readFileHeader_info {s r : Bytes} {hdr : FileHeader} (h : readFileHeader s = .ok hdr r) :
    s[3]? = some hdr.version ∧ (¬ CustomTable s → hdr.caches = none) := by
  have hl5 := readFileHeader_ok_len h
  match s, hl5 with
  | h1 :: h2 :: h3 :: h4 :: h5 :: s, _ =>
    rw [readFileHeader_cons5] at h
    split at h
    · unfold fileHeaderTail at h
      split at h
      · simp at h
      · split at h
        · rename_i hct
          have hc : CustomTable (h1 :: h2 :: h3 :: h4 :: h5 :: s) := ⟨h5, rfl, hct⟩
          refine ⟨?_, fun hx => absurd hc hx⟩
          cases hp : parseInt32 s with
          | error => rw [hp] at h; simp [Parsed.bind] at h
          | endOfData => rw [hp] at h; simp [Parsed.bind] at h
          | ok n r1 =>
            rw [hp] at h
            simp only [Parsed.bind] at h
            cases hp2 : parseInt32 r1 with
            | error => rw [hp2] at h; simp at h
            | endOfData => rw [hp2] at h; simp at h
            | ok m r2 =>
              rw [hp2] at h
              simp only at h
              split at h
              · simp at h
              · split at h
                · simp at h
                · simp only [Parsed.ok.injEq] at h
                  rw [← h.1]
                  rfl
        · simp only [Parsed.ok.injEq] at h
          rw [← h.1]
          exact ⟨rfl, fun _ => rfl⟩
    · simp at h

theorem Spec.CustomTable.append {s : Bytes} (h : CustomTable s) (t : Bytes) : CustomTable (s ++ t) := by
  obtain ⟨b, h1, h2⟩ := h
  refine ⟨b, ?_, h2⟩
  rw [List.getElem?_append_left, h1]
  exact (List.getElem?_eq_some_iff.1 h1).1

theorem Spec.Extended.append {s : Bytes} (h : Extended s) (t : Bytes) : Extended (s ++ t) := by
  unfold Extended at *
  rw [List.getElem?_append_left, h]
  exact (List.getElem?_eq_some_iff.1 h).1

/-- State of a decoder that has seen `s`, the beginning of a file without a custom code table. -/
structure PlainInv (d : Decoder) (t : CodeTable) (str s : Bytes) : Prop where
  table : d.top.table = t
  str : d.top.tableString = str
  nested : d.top.started = true → d.nested = []
  fresh : d.top.started = true → d.top.cache = none → d.top.unparsed = s
  cache : d.top.started = true → ∀ c, d.top.cache = some c → c.nearSize = 4

theorem PlainInv.chunk {d : Decoder} {t : CodeTable} {str s data : Bytes} (h : PlainInv d t str s) (hd : DecInv d)
    (hp : ¬ CustomTable (s ++ data)) :
    (∀ f, d.call (.chunk data) = .error f → f = .nearOverflow) ∧
    (∀ r d', d.call (.chunk data) = .ok (r, d') → PlainInv d' t str (s ++ data)) := by
  by_cases hs : d.top.started = true
  · obtain ⟨h1, h2⟩ := hd hs
    obtain ⟨i1, i2, i3⟩ := chunk_inv h1 data
    simp only [Decoder.call, decodeChunk_eq]
    have hplain : d.top.cache = none → ∀ hdr rest, readFileHeader (d.top.unparsed ++ data) = .ok hdr rest →
        hdr.caches = none := by
      intro hc hdr rest hr
      rw [h.fresh hs hc] at hr
      exact (readFileHeader_info hr).2 hp
    cases hr : chunkRun d.top d.nested data with
    | fault f =>
      refine ⟨?_, by simp⟩
      intro f' hf
      simp only [Except.error.injEq] at hf
      subst hf
      have hf := i3 _ hr
      cases hc : d.top.cache with
      | none => exact hf.plain hc (hplain hc)
      | some c => exact hf.near (h.nested hs) c hc (by rw [h.cache hs c hc]; decide)
    | error L o =>
      refine ⟨by simp, ?_⟩
      intro r d' he
      simp only [Except.ok.injEq, Prod.mk.injEq] at he
      rw [← he.2]
      have hf := i2 _ _ hr
      have ht : L.table = d.top.table ∧ L.tableString = d.top.tableString := by
        cases hc : d.top.cache with
        | none => exact hf.plain hc (hplain hc)
        | some c => exact hf.near (h.nested hs) (by rw [hc]; simp)
      have hst : ¬ L.started = true := by rw [hf.stopped]; simp
      exact ⟨ht.1.trans h.table, ht.2.trans h.str, fun hx => absurd hx hst, fun hx => absurd hx hst,
        fun hx => absurd hx hst⟩
    | ok L ns o =>
      refine ⟨by simp, ?_⟩
      intro r d' he
      simp only [Except.ok.injEq, Prod.mk.injEq] at he
      rw [← he.2]
      have hf := i1 _ _ _ hr
      cases hc : d.top.cache with
      | none =>
        rcases hf.plain hc with ⟨_, p2, p3⟩ | ⟨hdr, rest, p1, _, p3, p4⟩
        · subst p2
          subst p3
          have hc' : (d.top.setUnparsed (d.top.unparsed ++ data)).cache = none := hc
          refine ⟨h.table, h.str, fun _ => rfl, fun _ _ => ?_, fun _ c hx => ?_⟩
          · change d.top.unparsed ++ data = s ++ data
            rw [h.fresh hs hc]
          · rw [hc'] at hx; simp at hx
        · obtain ⟨q1, q2, q3, c', q4, q5⟩ := p4 (hplain hc _ _ p1)
          refine ⟨q2.trans h.table, q3.trans h.str, fun _ => q1, fun _ hx => absurd hx p3, fun _ c hx => ?_⟩
          have hx' : L.cache = some c := hx
          rw [q4] at hx'
          simp only [Option.some.injEq] at hx'
          rw [← hx']
          exact q5
      | some c0 =>
        obtain ⟨q1, q2, q3, _, c', q4, q5⟩ := hf.near (h.nested hs) c0 hc
        refine ⟨q2.trans h.table, q3.trans h.str, fun _ => q1, fun _ hx => ?_, fun _ c hx => ?_⟩
        · have hx' : L.cache = none := hx
          rw [q4] at hx'; simp at hx'
        · have hx' : L.cache = some c := hx
          rw [q4] at hx'
          simp only [Option.some.injEq] at hx'
          rw [← hx', q5]
          exact h.cache hs c0 hc
  · have hs' : d.top.started = false := by simpa using hs
    rw [chunk_stopped hs']
    refine ⟨by simp, ?_⟩
    intro r d' he
    simp only [Except.ok.injEq, Prod.mk.injEq] at he
    rw [← he.2]
    refine ⟨h.table, h.str, ?_, ?_, ?_⟩ <;> intro hx <;> simp [Level.reset] at hx

theorem PlainInv.setter {d : Decoder} {t : CodeTable} {str s : Bytes} (h : PlainInv d t str s)
    {c : DecoderCall} (hc : DecoderCall.inner c = true) (hn : ∀ data, c ≠ .chunk data) :
    ∃ r d', d.call c = .ok (r, d') ∧ PlainInv d' t str s := by
  cases c with
  | start dict => simp [DecoderCall.inner] at hc
  | finish => simp [DecoderCall.inner] at hc
  | chunk data => exact absurd rfl (hn data)
  | setMaxFile n => exact ⟨_, _, rfl, h.table, h.str, h.nested, h.fresh, h.cache⟩
  | setMaxWin n =>
    refine ⟨_, _, rfl, ?_⟩
    unfold Decoder.setMaxWin
    split
    · exact h
    · exact ⟨h.table, h.str, h.nested, h.fresh, h.cache⟩
  | setAllowTarget b =>
    refine ⟨_, _, rfl, ?_⟩
    unfold Decoder.setAllowTarget
    split
    · exact h
    · exact ⟨h.table, h.str, h.nested, h.fresh, h.cache⟩

theorem PlainInv.body {d : Decoder} {t : CodeTable} {str s : Bytes} (h : PlainInv d t str s) (hd : DecInv d)
    {cs : List DecoderCall} (hc : ∀ c ∈ cs, DecoderCall.inner c = true) (hp : ¬ CustomTable (s ++ streamOf cs)) :
    (∀ f, d.calls cs = .error f → f = .nearOverflow) ∧
    (∀ rs d', d.calls cs = .ok (rs, d') → PlainInv d' t str (s ++ streamOf cs)) := by
  induction cs generalizing d s with
  | nil =>
    refine ⟨by simp [Decoder.calls], ?_⟩
    intro rs d' h'
    simp only [Decoder.calls, Except.ok.injEq, Prod.mk.injEq] at h'
    rw [← h'.2, streamOf, List.append_nil]
    exact h
  | cons c cs ih =>
    have hcs : ∀ c ∈ cs, DecoderCall.inner c = true := fun c hx => hc c (by simp [hx])
    by_cases hch : ∃ data, c = .chunk data
    · obtain ⟨data, rfl⟩ := hch
      rw [streamOf, ← List.append_assoc] at hp ⊢
      obtain ⟨k1, k2⟩ := h.chunk hd (data := data) (fun hx => hp (CustomTable.append hx _))
      refine ⟨?_, ?_⟩
      · intro f hf
        rcases calls_cons_error hf with h1 | ⟨r, d1, h1, h2⟩
        · exact k1 f h1
        · exact (ih (k2 _ _ h1) (hd.call h1) hcs hp).1 f h2
      · intro rs d' hf
        obtain ⟨r, d1, rs', h1, h2, _⟩ := calls_cons_ok hf
        exact (ih (k2 _ _ h1) (hd.call h1) hcs hp).2 _ _ h2
    · have hn : ∀ data, c ≠ .chunk data := fun data hx => hch ⟨data, hx⟩
      have hst : streamOf (c :: cs) = streamOf cs := by
        cases c <;> first | rfl | exact absurd rfl (hn _)
      rw [hst] at hp ⊢
      obtain ⟨r, d1, h1, h2⟩ := h.setter (hc c (by simp)) hn
      refine ⟨?_, ?_⟩
      · intro f hf
        rcases calls_cons_error hf with h3 | ⟨r', d1', h3, h4⟩
        · rw [h1] at h3; simp at h3
        · rw [h1] at h3
          simp only [Except.ok.injEq, Prod.mk.injEq] at h3
          rw [← h3.2] at h4
          exact (ih h2 (hd.call h1) hcs hp).1 f h4
      · intro rs d' hf
        obtain ⟨r', d1', rs', h3, h4, _⟩ := calls_cons_ok hf
        rw [h1] at h3
        simp only [Except.ok.injEq, Prod.mk.injEq] at h3
        rw [← h3.2] at h4
        exact (ih h2 (hd.call h1) hcs hp).2 _ _ h4

/-- A decoder between two sessions, with its table and the stale table string. -/
structure PlainIdle (d : Decoder) (t : CodeTable) (str : Bytes) : Prop where
  stopped : d.top.started = false
  table : d.top.table = t
  str : d.top.tableString = str

theorem PlainIdle.inner {d : Decoder} {t : CodeTable} {str : Bytes} (h : PlainIdle d t str)
    {cs : List DecoderCall} (hc : ∀ c ∈ cs, DecoderCall.inner c = true) :
    ∃ rs d', d.calls cs = .ok (rs, d') ∧ PlainIdle d' t str := by
  have hns : ∀ c ∈ cs, ∀ dict, c ≠ .start dict := by
    intro c hx dict hy
    have := hc c hx
    rw [hy] at this
    simp [DecoderCall.inner] at this
  induction cs generalizing d with
  | nil => exact ⟨[], d, rfl, h⟩
  | cons c cs ih =>
    have h1 : ∃ r d1, d.call c = .ok (r, d1) ∧ PlainIdle d1 t str := by
      cases c with
      | start dict => exact absurd rfl (hns _ (by simp) dict)
      | finish => have := hc _ (List.mem_cons_self ..); simp [DecoderCall.inner] at this
      | chunk data => exact ⟨_, _, chunk_stopped h.stopped data, rfl, h.table, h.str⟩
      | setMaxFile n => exact ⟨_, _, rfl, h.stopped, h.table, h.str⟩
      | setMaxWin n =>
        refine ⟨_, _, rfl, ?_⟩
        unfold Decoder.setMaxWin
        split
        · exact h
        · exact ⟨h.stopped, h.table, h.str⟩
      | setAllowTarget b =>
        refine ⟨_, _, rfl, ?_⟩
        unfold Decoder.setAllowTarget
        split
        · exact h
        · exact ⟨h.stopped, h.table, h.str⟩
    obtain ⟨r, d1, h2, h3⟩ := h1
    obtain ⟨rs, d2, h4, h5⟩ := ih h3 (fun c hx => hc c (by simp [hx])) (fun c hx => hns c (by simp [hx]))
    exact ⟨r :: rs, d2, by rw [calls_cons h2, h4], h5⟩

theorem PlainIdle.start {d : Decoder} {t : CodeTable} {str : Bytes} (h : PlainIdle d t str) (dict : Bytes) :
    PlainInv (d.start dict) t str [] := by
  have hs := h.stopped
  have e : d.start dict = { top := d.top.start dict, nested := [] } := by simp [Decoder.start, hs]
  have e2 : d.top.start dict =
      { ({ d.top with unparsed := [], decoded := [] } : Level).reset with dict := dict, started := true } := by
    simp [Level.start, hs]
  rw [e, e2]
  refine ⟨h.table, h.str, fun _ => rfl, fun _ _ => rfl, fun _ c hc => ?_⟩
  simp [Level.reset] at hc

theorem PlainIdle.session {d : Decoder} {t : CodeTable} {str : Bytes} (h : PlainIdle d t str) (hd : DecInv d)
    (s : Session) (hp : ¬ CustomTable s.stream) :
    (∀ f, d.calls s.calls = .error f → f = .nearOverflow) ∧
    (∀ rs d', d.calls s.calls = .ok (rs, d') → PlainIdle d' t str) := by
  obtain ⟨rs0, d0, h0, hi0⟩ := h.inner s.pre_inner
  have hd0 := hd.calls h0
  have hd1 := (hd0.start s.dict).1
  have hi1 := hi0.start s.dict
  obtain ⟨b1, b2⟩ := hi1.body hd1 s.body_inner (by rw [List.nil_append]; exact hp)
  unfold Session.calls
  refine ⟨?_, ?_⟩
  · intro f hf
    rcases calls_append_error hf with h1 | ⟨rs1, d1, h1, h2⟩
    · rw [h0] at h1; simp at h1
    · rw [h0] at h1
      simp only [Except.ok.injEq, Prod.mk.injEq] at h1
      rw [← h1.2] at h2
      rcases calls_cons_error h2 with h3 | ⟨r, d2, h3, h4⟩
      · simp [Decoder.call] at h3
      · simp only [Decoder.call, Except.ok.injEq, Prod.mk.injEq] at h3
        rw [← h3.2] at h4
        rcases calls_append_error h4 with h5 | ⟨rs2, d3, h5, h6⟩
        · exact b1 f h5
        · simp [Decoder.calls, Decoder.call] at h6
  · intro rs d' hf
    obtain ⟨rs1, d1, rs2, h1, h2, _⟩ := calls_append hf
    rw [h0] at h1
    simp only [Except.ok.injEq, Prod.mk.injEq] at h1
    rw [← h1.2] at h2
    obtain ⟨r, d2, rs3, h3, h4, _⟩ := calls_cons_ok h2
    simp only [Decoder.call, Except.ok.injEq, Prod.mk.injEq] at h3
    rw [← h3.2] at h4
    obtain ⟨rs4, d3, rs5, h5, h6, _⟩ := calls_append h4
    have hb := b2 _ _ h5
    simp only [Decoder.calls, Decoder.call, Except.ok.injEq, Prod.mk.injEq] at h6
    rw [← h6.2]
    exact ⟨rfl, hb.table, hb.str⟩

theorem PlainIdle.sessions {d : Decoder} {t : CodeTable} {str : Bytes} (h : PlainIdle d t str) (hd : DecInv d)
    (ss : List Session) (hp : ∀ s ∈ ss, ¬ CustomTable s.stream) :
    (∀ f, d.calls (ss.flatMap Session.calls) = .error f → f = .nearOverflow) ∧
    (∀ rs d', d.calls (ss.flatMap Session.calls) = .ok (rs, d') → PlainIdle d' t str ∧ DecInv d') := by
  induction ss generalizing d with
  | nil =>
    refine ⟨by simp [Decoder.calls], ?_⟩
    intro rs d' h'
    simp only [List.flatMap_nil, Decoder.calls, Except.ok.injEq, Prod.mk.injEq] at h'
    rw [← h'.2]
    exact ⟨h, hd⟩
  | cons s ss ih =>
    obtain ⟨s1, s2⟩ := h.session hd s (hp s (by simp))
    rw [List.flatMap_cons]
    refine ⟨?_, ?_⟩
    · intro f hf
      rcases calls_append_error hf with h1 | ⟨rs1, d1, h1, h2⟩
      · exact s1 f h1
      · exact (ih (s2 _ _ h1) (hd.calls h1) (fun s hs => hp s (by simp [hs]))).1 f h2
    · intro rs d' hf
      obtain ⟨rs1, d1, rs2, h1, h2, _⟩ := calls_append hf
      exact (ih (s2 _ _ h1) (hd.calls h1) (fun s hs => hp s (by simp [hs]))).2 _ _ h2

end Vcd
