import Verif.Proof.Writer
import Verif.Spec.WriterHistory
import Verif.Props.Writer

/-!
# Histories of a code table writer: lemmas
-/

namespace Vcd
open Spec

namespace Writer

variable {c : Coding} {m : InstructionMap}

theorem Told_target (t : Told) : execOps t.dict t.ops = t.dict ++ t.target := by
  obtain ⟨r, hr⟩ := execOps_prefix t.dict t.ops
  rw [Told.target, ← hr, List.drop_left]

theorem Told_target_length (t : Told) : t.target.length = sizes t.ops := by
  have := execOps_length t.ops t.dict
  rw [Told_target, List.length_append] at this; omega

/-- A writer that has been told `t`. -/
structure Knows (c : Coding) (m : InstructionMap) (t : Told) (w : Writer) : Prop where
  inv : ∃ items, Inv c (c.near + c.same + 1) m t.dict.length w t.ops items
  table : w.table = c.table
  maxMode : w.maxMode = c.near + c.same + 1
  checksum : w.checksum = t.checksum
  small : t.dict.length + sizes t.ops < 2 ^ 31
  few : t.ops ≠ [] → sizes t.ops + 11 * t.ops.length + 26 < 2 ^ 31
  lt : ∀ v, t.checksum = some v → v < 2 ^ 32

theorem Knows.ready {t : Told} {w : Writer} (h : Knows c m t w) (h0 : t.ops = []) :
    Ready c (c.near + c.same + 1) m t.dict.length w := by
  obtain ⟨⟨items, h1⟩, h2, h3, _⟩ := h
  rw [h0] at h1
  have : items = [] := by
    rcases h1.last with ⟨_, k⟩ | ⟨_, front, o, k, _⟩
    · exact k
    · simp at k
  rw [this] at h1
  exact ⟨h1, h2, h3⟩

theorem Ready.knows {w : Writer} {dict : Bytes} {ck : Option Nat} (h : Ready c (c.near + c.same + 1) m dict.length w)
    (hck : w.checksum = ck) (hd : dict.length < 2 ^ 31) (hlt : ∀ v, ck = some v → v < 2 ^ 32) : Knows c m ⟨dict, [], ck⟩ w :=
  ⟨⟨[], h.inv⟩, h.table, h.maxMode, hck, by simpa [sizes] using hd, fun h => absurd rfl h, hlt⟩

/-- A writer with which the history can go on. -/
def Knowing (c : Coding) (m : InstructionMap) (interleaved : Bool) : Option Told → Writer → Prop
  | none, w => w = newCustom interleaved c.near c.same c.table (c.near + c.same + 1)
  | some t, w => Knows c m t w ∧ w.interleaved = interleaved

theorem act_ok (u : Usable c (c.near + c.same + 1) m) {interleaved : Bool} {t : Option Told} {w : Writer}
    (h : Knowing c m interleaved t w) {a : WriterAct} (hm : MayDo t a) :
    ∃ r w', writerAct w a = .ok (r, w') ∧ Knowing c m interleaved (toldNext t a) w' ∧ Expected c interleaved t a r := by
  cases t with
  | none =>
    cases a with
    | init dict =>
      rw [show w = _ from h]
      obtain ⟨w', k1, k2, k3, k4⟩ := init_ready u
        (w := newCustom interleaved c.near c.same c.table (c.near + c.same + 1)) dict.length rfl rfl (Or.inl rfl)
        (Or.inl rfl) rfl rfl rfl
      exact ⟨(true, []), w', by simp only [writerAct, k1, Except.map], ⟨k4.knows k3 hm (by intro v hv; cases hv), k2⟩, rfl, rfl⟩
    | op o => exact hm.elim
    | checksum v => exact hm.elim
    | output => exact hm.elim
  | some t =>
    obtain ⟨h, hil⟩ := h
    cases a with
    | init dict =>
      obtain ⟨h0, hd⟩ := hm
      have hr := h.ready h0
      obtain ⟨w', k1, k2, k3, k4⟩ := init_ready u (w := w) dict.length h.table h.maxMode (Or.inr hr.inv.map)
        (Or.inr ⟨_, hr.inv.cache⟩) hr.inv.inst (by rw [hr.inv.data]; simp) (by rw [hr.inv.addr]; simp)
      refine ⟨(true, []), w', by simp only [writerAct, k1, Except.map], ?_, rfl, rfl⟩
      have := k4.knows (k3.trans h.checksum) hd h.lt
      simp only [toldNext, Knowing]
      rw [h0]
      exact ⟨this, k2.trans hil⟩
    | op o =>
      obtain ⟨m1, m2, m3, m4⟩ := hm
      obtain ⟨items, hi⟩ := h.inv
      have hsz : sizes (t.ops ++ [o]) = sizes t.ops + o.size := by simp [sizes]
      obtain ⟨w', k1, k2, k3, k4, k5, items', k6⟩ := call_ok u hi (o := o)
        ⟨m1, by simp only [int32Max]; omega, fun a n e => ⟨m2 a n e, by simp only [int32Max]; omega⟩⟩
      refine ⟨(true, []), w', by simp only [writerAct, k1, Except.map], ⟨?_, k2.trans hil⟩, rfl, rfl⟩
      exact ⟨⟨items', k6⟩, k4.trans h.table, k5.trans h.maxMode, k3.trans h.checksum, m3, fun _ => m4, h.lt⟩
    | checksum v =>
      obtain ⟨⟨items, hi⟩, h2, h3, h4, h5, h6, h7⟩ := h
      refine ⟨(true, []), w.addChecksum v, rfl, ⟨⟨⟨items, ?_⟩, h2, h3, rfl, h5, h6, ?_⟩, hil⟩, rfl, rfl⟩
      · obtain ⟨i1, i2, i3, i4, i5, i6, i7, i8, i9, i10, i11⟩ := hi
        exact ⟨i1, i2, i3, i4, i5, i6, i7, i8, i9, i10, i11⟩
      · intro v' hv; cases hv; exact hm
    | output =>
      by_cases h0 : t.ops = []
      · have hr := h.ready h0
        refine ⟨(true, []), w, by simp only [writerAct, output_nothing u hr, Except.map], ?_, rfl, ?_⟩
        · simp only [toldNext, Knowing]
          rw [← h0]
          exact ⟨h, hil⟩
        · simp only [if_pos h0]
      · obtain ⟨items, hi⟩ := h.inv
        have hlen := Told_target_length t
        have hcost := costs_le t.ops
        have hsm := h.small
        have hfew := h.few h0
        obtain ⟨out, j1, _, j4, j5, _, j2⟩ := windowBytes_any hi h0 rfl (Told_target t)
          (by simp only [int32Max]; omega) (by simp only [int32Max]; omega)
          (by rw [h.checksum]; exact h.lt) u.near u.sum
        obtain ⟨w2, i1, i2, i3, i4⟩ := init_ready u (w := { w with data := [], inst := [], addr := [] })
          w.dictionarySize h.table h.maxMode (Or.inr hi.map) (Or.inr ⟨_, hi.cache⟩) rfl rfl rfl
        rw [hi.dict] at i4
        refine ⟨(true, out), w2, ?_, ⟨i4.knows (i3.trans h.checksum) (by omega) h.lt, i2.trans hil⟩, rfl, ?_⟩
        · simp only [writerAct, output, if_neg j4, j1, i1, Except.map]
        · simp only [if_neg h0]
          rw [hil, h.checksum] at j5
          refine ⟨j5, ?_⟩
          intro ext s prev e1 e2 e3 e4
          exact j2 ext s prev (by rw [hil, h.checksum]; exact e1) (by rw [h.checksum]; exact e2) e3 e4

theorem properHistory_cons {P : List WriterAct} {a : WriterAct} {as : List WriterAct}
    (h : ∀ pre b post, a :: as = pre ++ b :: post → MayDo (toldBy (P ++ pre)) b) :
    MayDo (toldBy P) a ∧ ∀ pre b post, as = pre ++ b :: post → MayDo (toldBy (P ++ [a] ++ pre)) b := by
  refine ⟨by simpa using h [] a as rfl, ?_⟩
  intro pre b post e
  have := h (a :: pre) b post (by rw [e]; rfl)
  simpa using this

theorem toldBy_snoc (P : List WriterAct) (a : WriterAct) : toldBy (P ++ [a]) = toldNext (toldBy P) a := by
  simp [toldBy, List.foldl_append]

theorem acts_ok (u : Usable c (c.near + c.same + 1) m) {interleaved : Bool} (as : List WriterAct) :
    ∀ {P : List WriterAct} {w : Writer}, Knowing c m interleaved (toldBy P) w →
    (∀ pre b post, as = pre ++ b :: post → MayDo (toldBy (P ++ pre)) b) →
    ∃ rs w', writerActs w as = .ok (rs, w') ∧ rs.length = as.length ∧ Knowing c m interleaved (toldBy (P ++ as)) w' ∧
      ∀ pre a post, as = pre ++ a :: post → ∃ r, rs[pre.length]? = some r ∧ Expected c interleaved (toldBy (P ++ pre)) a r := by
  induction as with
  | nil =>
    intro P w h _
    exact ⟨[], w, rfl, rfl, by simpa using h, fun pre a post e => by simp at e⟩
  | cons a as ih =>
    intro P w h hp
    obtain ⟨p1, p2⟩ := properHistory_cons hp
    obtain ⟨r, w1, k1, k2, k3⟩ := act_ok u h p1
    rw [← toldBy_snoc] at k2
    obtain ⟨rs, w2, j1, j2, j3, j4⟩ := ih k2 p2
    refine ⟨r :: rs, w2, by simp only [writerActs, k1, j1], by simp [j2], by simpa using j3, ?_⟩
    intro pre b post e
    match pre, e with
    | [], e =>
      simp only [List.nil_append, List.cons.injEq] at e
      obtain ⟨rfl, rfl⟩ := e
      exact ⟨r, rfl, by simpa using k3⟩
    | x :: pre, e =>
      simp only [List.cons_append, List.cons.injEq] at e
      obtain ⟨rfl, e⟩ := e
      obtain ⟨r', q1, q2⟩ := j4 pre b post e
      exact ⟨r', by simpa using q1, by simpa using q2⟩

/-- The windows of a history with one dictionary. -/
theorem acts_windows {interleaved ext : Bool} {s : Settings} {dict : Bytes} (hext : interleaved = true → ext = true)
    (as : List WriterAct) : ∀ {t : Told} {rs : List (Bool × Bytes)} {prev : Bytes}, t.dict = dict →
    (∀ d, WriterAct.init d ∈ as → d = dict) → rs.length = as.length →
    (∀ pre a post, as = pre ++ a :: post → ∃ r, rs[pre.length]? = some r ∧
      Expected c interleaved (pre.foldl toldNext (some t)) a r) →
    (∀ pre post t' v, as = pre ++ .output :: post → pre.foldl toldNext (some t) = some t' → t'.ops ≠ [] → t'.checksum = some v →
      v = adlerOf t'.target ∧ ext = true) →
    (∀ T ∈ windowTargets (some t) as, T.length ≤ s.maxWindow) →
    prev.length + (windowTargets (some t) as).flatten.length ≤ s.maxFile →
    Windows c ext strict s dict prev (rs.flatMap Prod.snd) (windowTargets (some t) as).flatten := by
  induction as with
  | nil =>
    intro t rs prev _ _ hl _ _ _ _
    simp only [List.length_nil, List.length_eq_zero_iff] at hl
    subst hl
    exact .nil
  | cons a as ih =>
    intro t rs prev ht hd hl he hck hw hf
    match rs, hl with
    | r :: rs, hl =>
    obtain ⟨r', e1, e2, e3⟩ := he [] a as rfl
    simp only [List.length_nil, List.getElem?_cons_zero, Option.some.injEq] at e1
    subst e1
    have hnext : ∃ t', toldNext (some t) a = some t' ∧ t'.dict = dict := by
      cases a with
      | init d => exact ⟨_, rfl, hd d (List.mem_cons_self ..)⟩
      | op o => exact ⟨_, rfl, ht⟩
      | checksum v => exact ⟨_, rfl, ht⟩
      | output => exact ⟨_, rfl, ht⟩
    obtain ⟨t', n1, n2⟩ := hnext
    have ih' := fun prev hw hf => ih (t := t') (rs := rs) (prev := prev) n2 (fun d hm => hd d (List.mem_cons_of_mem _ hm))
      (by simpa using hl)
      (by
        intro pre b post e
        obtain ⟨q, q1, q2⟩ := he (a :: pre) b post (by rw [e]; rfl)
        refine ⟨q, by simpa using q1, ?_⟩
        rw [List.foldl_cons, n1] at q2
        exact q2)
      (by
        intro pre post t2 v e k1 k2 k3
        exact hck (a :: pre) post t2 v (by rw [e]; rfl) (by rw [List.foldl_cons, n1]; exact k1) k2 k3)
      hw hf
    by_cases hout : a = .output
    · subst hout
      have hwt : windowTargets (some t) (.output :: as) = t.target :: windowTargets (some t') as := by
        simp only [windowTargets, n1, List.singleton_append]
      rw [hwt] at hw hf ⊢
      simp only [List.flatten_cons, List.length_append] at hf
      simp only [List.foldl_nil] at e3
      have h1 := ih' (prev ++ t.target) (fun T hT => hw T (List.mem_cons_of_mem _ hT)) (by rw [List.length_append]; omega)
      rw [List.flatMap_cons, List.flatten_cons]
      by_cases h0 : t.ops = []
      · rw [if_pos h0] at e3
        have : t.target = [] := by
          have := Told_target_length t
          rw [h0] at this
          simpa [sizes] using this
        rw [this, List.append_nil] at h1
        rw [e3, this]
        exact h1
      · rw [if_neg h0] at e3
        refine .cons (e3.2 ext s prev ?_ ?_ (hw _ (List.mem_cons_self ..)) (by omega) |> fun h => by rw [← ht]; exact h) h1
        · rintro (h | h)
          · exact hext h
          · cases hk : t.checksum with
            | none => exact absurd hk h
            | some v => exact (hck [] as t v rfl rfl h0 hk).2
        · intro v hv
          exact (hck [] as t v rfl rfl h0 hv).1
    · have hwt : windowTargets (some t) (a :: as) = windowTargets (some t') as := by
        cases a <;> first | exact absurd rfl hout | simp only [windowTargets, n1, List.nil_append]
      have hr : r.2 = [] := by
        cases a <;> first | exact absurd rfl hout | exact e3
      rw [hwt] at hw hf ⊢
      rw [List.flatMap_cons, hr, List.nil_append]
      exact ih' prev hw hf

/-! ## The checksum -/

theorem encodeInstruction_addChecksum (w : Writer) (v : Nat) (inst : UInt8) (size mode : Nat) :
    (w.addChecksum v).encodeInstruction inst size mode = (w.encodeInstruction inst size mode).map (·.addChecksum v) := by
  unfold encodeInstruction
  cases hm : w.map with
  | none => simp only [addChecksum, hm, Except.map]
  | some m =>
    have e1 : (w.addChecksum v).map = some m := hm
    have e2 : (w.addChecksum v).compound m inst size mode = w.compound m inst size mode := rfl
    rw [e1]
    dsimp only
    rw [e2]
    cases w.compound m inst size mode with
    | error f => rfl
    | ok x =>
      cases x with
      | some x =>
        obtain ⟨i, op, explicit⟩ := x
        dsimp only
        cases sizeOperand explicit size <;> rfl
      | none =>
        dsimp only
        cases lookupFirst m inst size mode with
        | error f => rfl
        | ok x =>
          obtain ⟨op, explicit⟩ := x
          dsimp only
          cases sizeOperand explicit size <;> rfl

theorem appendData_addChecksum (w : Writer) (v : Nat) (bs : Bytes) :
    (w.addChecksum v).appendData bs = (w.appendData bs).addChecksum v := by
  unfold appendData
  have : (w.addChecksum v).interleaved = w.interleaved := rfl
  rw [this]
  split <;> rfl

theorem appendAddr_addChecksum (w : Writer) (v : Nat) (bs : Bytes) :
    (w.addChecksum v).appendAddr bs = (w.appendAddr bs).addChecksum v := by
  unfold appendAddr
  have : (w.addChecksum v).interleaved = w.interleaved := rfl
  rw [this]
  split <;> rfl

theorem call_addChecksum (w : Writer) (v : Nat) (cc : CoderCall) (h : cc ≠ .output) :
    (w.addChecksum v).call cc = (w.call cc).map fun r => (r.1, r.2.addChecksum v) := by
  cases cc with
  | output => exact absurd rfl h
  | add bs =>
    simp only [call, add, encodeInstruction_addChecksum]
    cases w.encodeInstruction vcdAdd bs.length 0 with
    | error f => rfl
    | ok w1 => simp only [Except.map, appendData_addChecksum]; rfl
  | run n b =>
    simp only [call, run, encodeInstruction_addChecksum]
    cases w.encodeInstruction vcdRun n 0 with
    | error f => rfl
    | ok w1 => simp only [Except.map, appendData_addChecksum]; rfl
  | copy a n =>
    obtain ⟨il, mm, ca, ds, tl, tb, mp, lo, ck, ins, da, ad⟩ := w
    simp only [call, copy, addChecksum]
    cases mp with
    | none => rfl
    | some m =>
      dsimp only
      cases ca.encodeAddress a (toInt32 (ds + tl)) with
      | fault f => rfl
      | ok mode encoded cache =>
        have key := encodeInstruction_addChecksum ⟨il, mm, cache, ds, tl, tb, some m, lo, ck, ins, da, ad⟩ v vcdCopy n mode
        simp only [addChecksum] at key
        dsimp only
        rw [key]
        cases (Writer.mk il mm cache ds tl tb (some m) lo ck ins da ad).encodeInstruction vcdCopy n mode with
        | error f => rfl
        | ok w1 =>
          simp only [Except.map]
          cases w1.cache.addressBytes mode encoded with
          | none => rfl
          | some bytes =>
            have := appendAddr_addChecksum w1 v bytes
            simp only [addChecksum] at this
            simp only [this]
            rfl

theorem calls_addChecksum (cs : List CoderCall) (v : Nat) : ∀ (w : Writer), CoderCall.output ∉ cs →
    (w.addChecksum v).calls cs = (w.calls cs).map fun r => (r.1, r.2.addChecksum v) := by
  induction cs with
  | nil => intro w _; rfl
  | cons cc cs ih =>
    intro w h
    simp only [List.mem_cons, not_or] at h
    rw [calls, calls, call_addChecksum w v cc (fun e => h.1 e.symm)]
    cases w.call cc with
    | error f => rfl
    | ok r =>
      simp only [Except.map]
      rw [ih r.2 h.2]
      cases r.2.calls cs <;> rfl

end Writer
end Vcd
