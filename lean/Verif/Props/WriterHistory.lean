import Verif.Proof.WriterHistory
import Verif.Props.Custom

/-!
# C57: histories of a code table writer
-/

namespace Vcd.Props
open Spec Writer

/-- C57: in every proper history of a code table writer, for every coding, every call has the effect that is to be expected: `Init`
returns `true`; an `Output` appends one window for the instructions since the last one, carrying the checksum given last, or
nothing if there were none; and no other call appends anything. -/
theorem writer_history (c : Coding) (hc : WritableCoding c) (interleaved : Bool) (as : List WriterAct) (hp : ProperHistory as) :
    ∃ rs w, writerActs (Writer.newCustom interleaved c.near c.same c.table (c.near + c.same + 1)) as = .ok (rs, w) ∧
      rs.length = as.length ∧
      ∀ pre a post, as = pre ++ a :: post → ∃ r, rs[pre.length]? = some r ∧ Expected c interleaved (toldBy pre) a r := by
  obtain ⟨m, u⟩ := hc.usable
  obtain ⟨rs, w, h1, h2, _, h4⟩ := acts_ok u as (P := []) (interleaved := interleaved) rfl (by simpa [ProperHistory] using hp)
  exact ⟨rs, w, h1, h2, by simpa using h4⟩

/-- C57: the windows output in a proper history with one dictionary are, put together, windows by the grammar that stand for what
the instructions produce, if the checksum in force at each `Output` is right, however the calls of `AddChecksum` and
`Init` are placed. -/
theorem history_windows (c : Coding) (hc : WritableCoding c) (interleaved ext : Bool) (hext : interleaved = true → ext = true)
    (s : Settings) (dict : Bytes) (as : List WriterAct) (hp : ProperHistory (.init dict :: as))
    (hd : ∀ d, WriterAct.init d ∈ as → d = dict) (hck : ChecksumsRight (.init dict :: as))
    (hck' : ∀ v, WriterAct.checksum v ∈ as → ext = true)
    (hw : ∀ T ∈ windowTargets none (.init dict :: as), T.length ≤ s.maxWindow)
    (hf : (windowTargets none (.init dict :: as)).flatten.length ≤ s.maxFile) :
    ∃ rs w, writerActs (Writer.newCustom interleaved c.near c.same c.table (c.near + c.same + 1)) (.init dict :: as) = .ok (rs, w) ∧
      Windows c ext strict s dict [] (rs.flatMap Prod.snd) (windowTargets none (.init dict :: as)).flatten := by
  obtain ⟨rs, w, h1, h2, h4⟩ := writer_history c hc interleaved _ hp
  refine ⟨rs, w, h1, ?_⟩
  match rs, h2 with
  | r :: rs, h2 =>
  obtain ⟨r', e1, e2, e3⟩ := h4 [] _ _ rfl
  simp only [List.length_nil, List.getElem?_cons_zero, Option.some.injEq] at e1
  subst e1
  have e3 : r.2 = [] := e3
  rw [List.flatMap_cons, e3, List.nil_append]
  have hnone : ∀ (pre : List WriterAct) (t t' : Told), pre.foldl toldNext (some t) = some t' → t'.checksum ≠ none → t.checksum = none →
      ∃ v, WriterAct.checksum v ∈ pre := by
    intro pre
    induction pre with
    | nil => intro t t' k k1 k2; cases k; exact absurd k2 k1
    | cons a pre ih =>
      intro t t' k k1 k2
      rw [List.foldl_cons] at k
      cases a with
      | checksum v => exact ⟨v, List.mem_cons_self ..⟩
      | init d => obtain ⟨v, hv⟩ := ih { t with dict := d } t' k k1 k2; exact ⟨v, List.mem_cons_of_mem _ hv⟩
      | op o => obtain ⟨v, hv⟩ := ih { t with ops := t.ops ++ [o] } t' k k1 k2; exact ⟨v, List.mem_cons_of_mem _ hv⟩
      | output => obtain ⟨v, hv⟩ := ih { t with ops := [] } t' k k1 k2; exact ⟨v, List.mem_cons_of_mem _ hv⟩
  exact acts_windows (t := ⟨dict, [], none⟩) (prev := []) hext as rfl hd (by simpa using h2)
    (by
      intro pre a post e
      obtain ⟨q, q1, q2⟩ := h4 (.init dict :: pre) a post (by rw [e]; rfl)
      exact ⟨q, by simpa using q1, q2⟩)
    (by
      intro pre post t' v e k1 k2 k3
      refine ⟨hck (.init dict :: pre) post t' v (by rw [e]; rfl) k1 k2 k3, ?_⟩
      obtain ⟨v', hv⟩ := hnone pre _ t' k1 (by rw [k3]; simp) rfl
      exact hck' v' (by rw [e]; exact List.mem_append_left _ hv))
    hw (by rw [List.length_nil, Nat.zero_add]; exact hf)

/-- C57: so a header (`flags` is what is passed to `WriteHeader`) and those windows, in whatever chunks, are decoded to what the
instructions produce. -/
theorem history_decodes (interleaved : Bool) (flags : Nat) (hil : interleaved = true → flags ≠ 0) (s : Settings) (dict : Bytes)
    (as : List WriterAct) (hp : ProperHistory (.init dict :: as)) (hd : ∀ d, WriterAct.init d ∈ as → d = dict)
    (hck : ChecksumsRight (.init dict :: as)) (hck' : ∀ v, WriterAct.checksum v ∈ as → flags ≠ 0)
    (hw : ∀ T ∈ windowTargets none (.init dict :: as), T.length ≤ s.maxWindow)
    (hf : (windowTargets none (.init dict :: as)).flatten.length ≤ s.maxFile) :
    ∃ rs w, writerActs (Writer.new interleaved) (.init dict :: as) = .ok (rs, w) ∧
      ∀ cs, cs.flatten = Writer.header flags ++ rs.flatMap Prod.snd →
        (configured s).decode dict cs = some (windowTargets none (.init dict :: as)).flatten := by
  obtain ⟨rs, w, h1, h2⟩ := history_windows defaultCoding default_coding_writable interleaved (flags != 0) (by simpa using hil) s dict
    as hp hd hck (by simpa using hck') hw hf
  exact ⟨rs, w, h1, fun cs hcs => conforming_accepted_partial s dict _ _ (Writer.fileCode_of_windows h2) cs hcs⟩

/-- C57: `AddChecksum` can be called before or after the calls for the instructions: in every state of a writer, the results and
the state are the same. -/
theorem checksum_any_time (w : Writer) (v : Nat) (ops : List Op) :
    (w.addChecksum v).calls (ops.map Op.call) = (w.calls (ops.map Op.call)).map fun r => (r.1, r.2.addChecksum v) := by
  apply calls_addChecksum
  intro h
  obtain ⟨o, _, e⟩ := List.mem_map.1 h
  cases o <;> cases e

/-- C57: after a proper history without checksums, and between windows, `Init` restores the initial state: the writer is then
as a new one after `Init`. -/
theorem init_restores (c : Coding) (hc : WritableCoding c) (interleaved : Bool) (as : List WriterAct) (dict : Bytes)
    (hp : ProperHistory (as ++ [.init dict])) (hck : ∀ v, WriterAct.checksum v ∉ as) :
    ∃ rs w, writerActs (Writer.newCustom interleaved c.near c.same c.table (c.near + c.same + 1)) (as ++ [.init dict]) = .ok (rs, w) ∧
      writerActs (Writer.newCustom interleaved c.near c.same c.table (c.near + c.same + 1)) [.init dict] = .ok ([(true, [])], w) := by
  obtain ⟨m, u⟩ := hc.usable
  obtain ⟨rs, w, h1, _, h3, _⟩ := acts_ok u (as ++ [.init dict]) (P := []) (interleaved := interleaved) rfl (by simpa [ProperHistory] using hp)
  have hmay := hp as (.init dict) [] rfl
  obtain ⟨rs2, w2, k1, _, k3, k4⟩ := acts_ok u [.init dict] (P := []) (interleaved := interleaved) rfl (by
    intro pre b post e
    match pre, e with
    | [], e =>
      simp only [List.nil_append, List.cons.injEq] at e
      rw [← e.1]
      cases ht : toldBy as with
      | none => rw [ht] at hmay; exact hmay
      | some t => rw [ht] at hmay; exact hmay.2
    | _ :: pre, e => simp at e)
  have hnone : ∀ (l : List WriterAct) (t : Option Told), (∀ v, WriterAct.checksum v ∉ l) → (∀ t', t = some t' → t'.checksum = none) →
      ∀ t', l.foldl toldNext t = some t' → t'.checksum = none := by
    intro l
    induction l with
    | nil => intro t _ h t' e; exact h t' e
    | cons a l ih =>
      intro t hl h t' e
      simp only [List.mem_cons, not_or] at hl
      refine ih (toldNext t a) (fun v => (hl v).2) ?_ t' e
      intro t2 e2
      cases t with
      | none => cases a <;> cases e2; rfl
      | some t =>
        cases a with
        | checksum v => exact absurd rfl (hl v).1
        | init d => cases e2; exact h t rfl
        | op o => cases e2; exact h t rfl
        | output => cases e2; exact h t rfl
  have htold : ∃ t, toldBy (as ++ [.init dict]) = some t ∧ t.dict = dict ∧ t.ops = [] ∧ t.checksum = none := by
    rw [toldBy_snoc]
    cases ht : toldBy as with
    | none => exact ⟨_, rfl, rfl, rfl, rfl⟩
    | some t =>
      rw [ht] at hmay
      exact ⟨_, rfl, rfl, hmay.1, hnone as none hck (by intro t' e; cases e) t ht⟩
  obtain ⟨t, t1, t2, t3, t4⟩ := htold
  simp only [List.nil_append] at h3 k3
  rw [t1] at h3
  have r1 := h3.1.ready t3
  have c1 := h3.1.checksum
  rw [t4] at c1
  have k3 : Knows c m ⟨dict, [], none⟩ w2 ∧ w2.interleaved = interleaved := k3
  have r2 := k3.1.ready rfl
  have c2 := k3.1.checksum
  have e1 := r1.eq
  have e2 := r2.eq
  rw [c1, h3.2, t2] at e1
  rw [c2, k3.2] at e2
  have : w = w2 := by rw [e1, e2]
  refine ⟨rs, w, h1, ?_⟩
  rw [this, k1]
  obtain ⟨r, q1, q2, q3⟩ := k4 [] (.init dict) [] rfl
  simp only [writerActs] at k1
  split at k1
  · cases k1
  · rename_i r0 w0 _
    cases k1
    simp only [List.length_nil, List.getElem?_cons_zero, Option.some.injEq] at q1
    subst q1
    have q3 : r0.2 = [] := q3
    rw [show r0 = (true, []) from Prod.ext q2 q3]

/-- Whether a history of a standard writer goes well and the decoder rejects its output. -/
def rejectedHistory (flags : Nat) (dict : Bytes) (as : List WriterAct) : Bool :=
  match writerActs (Writer.new false) as with
  | .ok (rs, _) => rs.all (·.1) && ((configured {}).decode dict [Writer.header flags ++ rs.flatMap Prod.snd]).isNone
  | _ => false

theorem rejectedHistory_spec {flags : Nat} {dict : Bytes} {as : List WriterAct} (h : rejectedHistory flags dict as = true) :
    ∃ rs w, writerActs (Writer.new false) as = .ok (rs, w) ∧ (∀ r ∈ rs, r.1 = true) ∧
      (configured {}).decode dict [Writer.header flags ++ rs.flatMap Prod.snd] = none := by
  unfold rejectedHistory at h
  split at h
  · rename_i rs w h1
    simp only [Bool.and_eq_true, List.all_eq_true, Option.isNone_iff_eq_none] at h
    exact ⟨rs, w, h1, h.1, h.2⟩
  · cases h

/-- C57, finding: a checksum sticks. A window for which `AddChecksum` is not called carries the checksum of an earlier one,
and the decoder rejects it; even if `Init` has been called in between. -/
theorem checksum_sticks :
    ∃ rs w, writerActs (Writer.new false) [.init [0x61], .checksum (adlerOf [0x62]), .op (.add [0x62]), .output, .init [0x61],
        .op (.add [0x63]), .output] = .ok (rs, w) ∧ (∀ r ∈ rs, r.1 = true) ∧
      (configured {}).decode [0x61] [Writer.header 2 ++ rs.flatMap Prod.snd] = none :=
  rejectedHistory_spec (by decide +kernel)

/-- C57, finding: `Init` in the middle of a window does not restore the initial state: the instructions are still there, but
not their sizes, and the decoder rejects the window. -/
theorem init_keeps_instructions :
    ∃ rs w, writerActs (Writer.new false) [.init [0x61], .op (.add [0x62]), .init [0x61], .op (.add [0x63]), .output] =
        .ok (rs, w) ∧ (∀ r ∈ rs, r.1 = true) ∧
      (configured {}).decode [0x61] [Writer.header 0 ++ rs.flatMap Prod.snd] = none :=
  rejectedHistory_spec (by decide +kernel)

/-- A history to which the theorems apply: two windows, the second with its checksum given after its first instruction. -/
def sampleHistory : List WriterAct :=
  [.checksum (adlerOf [0x62]), .op (.add [0x62]), .output, .output, .init [0x61], .op (.copy 0 4), .checksum (adlerOf [0x61, 0x61, 0x61, 0x61, 0x63]),
    .op (.add [0x63]), .output]

/-- A property of all acts of a history, with what was told before. -/
def Along (P : Option Told → WriterAct → Prop) : Option Told → List WriterAct → Prop
  | _, [] => True
  | t, a :: as => P t a ∧ Along P (toldNext t a) as

theorem along_history {P : Option Told → WriterAct → Prop} (as : List WriterAct) : ∀ (Q : List WriterAct),
    Along P (toldBy Q) as → ∀ pre a post, as = pre ++ a :: post → P (toldBy (Q ++ pre)) a := by
  induction as with
  | nil => intro Q _ pre a post e; simp at e
  | cons b as ih =>
    intro Q h pre a post e
    match pre, e with
    | [], e =>
      simp only [List.nil_append, List.cons.injEq] at e
      rw [← e.1, List.append_nil]
      exact h.1
    | x :: pre, e =>
      simp only [List.cons_append, List.cons.injEq] at e
      obtain ⟨rfl, e⟩ := e
      have := ih (Q ++ [b]) (by rw [toldBy_snoc]; exact h.2) pre a post e
      simpa using this

/-- The hypotheses of `writer_history`, `history_windows` and `history_decodes` are met by `sampleHistory`, which outputs `b` and `aaaac`. -/
example : ProperHistory (.init [0x61] :: sampleHistory) ∧ ChecksumsRight (.init [0x61] :: sampleHistory) ∧
    (∀ d, WriterAct.init d ∈ sampleHistory → d = [0x61]) ∧
    (windowTargets none (.init [0x61] :: sampleHistory)).flatten = [0x62, 0x61, 0x61, 0x61, 0x61, 0x63] := by
  refine ⟨?_, ?_, ?_, by decide +kernel⟩
  · intro pre a post e
    have h := along_history (P := MayDo) (.init [0x61] :: sampleHistory) [] (by
      have h1 : adlerOf [0x62] < 2 ^ 32 := adlerOf_lt _
      have h2 : adlerOf [0x61, 0x61, 0x61, 0x61, 0x63] < 2 ^ 32 := adlerOf_lt _
      simp [Along, sampleHistory, toldBy, toldNext, MayDo, sizes, Op.size]
      omega) pre a post e
    simpa using h
  · intro pre post t v e h1 h2 h3
    have h := along_history (P := fun t a => ∀ t', t = some t' → a = .output → t'.ops ≠ [] → t'.checksum = none ∨ t'.checksum = some (adlerOf t'.target))
      (.init [0x61] :: sampleHistory) [] (by
        simp [Along, sampleHistory, toldBy, toldNext]
        decide +kernel) pre .output post e t (by simpa using h1) rfl h2
    rw [h3] at h
    simpa using h
  · intro d hm
    simp [sampleHistory] at hm
    exact hm

/-- The hypotheses of `init_restores` are met. -/
example : ProperHistory ([.init [0x61], .op (.copy 0 4), .output] ++ [.init [0x62]]) ∧
    ∀ v, WriterAct.checksum v ∉ ([.init [0x61], .op (.copy 0 4), .output] : List WriterAct) := by
  refine ⟨?_, by simp⟩
  intro pre a post e
  have h := along_history (P := MayDo) _ [] (by simp [Along, toldBy, toldNext, MayDo, sizes, Op.size]) pre a post e
  simpa using h

end Vcd.Props
