import Verif.Proof.Lifetime

/-!
# The decoder with its pointers does what the decoder without them does: the body of a window
-/

namespace Vcd.Lifetime
open Spec

/-- The members that do not change in `DecodeBody`. -/
def Level.fixed (P : Level) : Level :=
  { P with
    mem := { P.mem with decoded := { P.mem.decoded with text := [] }, objects := [] }
    cache := none
    window := { P.window with reader := { P.window.reader with lastStart := none, pending := none, lastPending := none } } }

/-- What stays the same in `DecodeBody`. -/
def Frame (P P' : Level) : Prop := P'.fixed = P.fixed ∧ P'.mem.shape = P.mem.shape

theorem Frame.refl (P : Level) : Frame P P := ⟨rfl, rfl⟩

theorem Frame.trans {A B C : Level} (h : Frame A B) (k : Frame B C) : Frame A C := ⟨k.1.trans h.1, k.2.trans h.2⟩

theorem Frame.same {P P' : Level} (h : Frame P P') : SameInput P.mem P'.mem :=
  ⟨congrArg (·.mem.call) h.1, congrArg (·.mem.input) h.1, congrArg (·.mem.unparsed) h.1⟩

/-! ### Appending -/

/-- The decoded target replaced. -/
def Level.setText (P : Level) (d : Bytes) : Level := { P with mem := { P.mem with decoded := { P.mem.decoded with text := d } } }

/-- The room that has been reserved is sufficient. -/
structure Room (P : Level) (env : BodyEnv) : Prop where
  start : P.window.startPos = env.startPos
  cap : env.reserved ≤ P.mem.decoded.capacity

theorem append_eq {P : Level} {env : BodyEnv} (h : Room P env) {bytes d : Bytes}
    (hd : appendTarget env P.mem.decoded.text bytes = .ok d) : P.append bytes = P.setText d ∧ d = P.mem.decoded.text ++ bytes := by
  unfold appendTarget at hd
  split at hd
  · simp at hd
  rename_i hr
  simp only [Except.ok.injEq] at hd
  have := h.cap
  subst hd
  refine ⟨?_, rfl⟩
  unfold Level.append Str.append Level.setText
  rw [if_pos (by omega)]

theorem appendTarget_fault {env : BodyEnv} {d bytes : Bytes} {f : Fault} (h : appendTarget env d bytes = .error f) : ¬ OnlyFault f := by
  unfold appendTarget at h
  split at h
  · simp only [Except.error.injEq] at h
    subst h
    simp [OnlyFault]
  · simp at h

theorem readRange_fault {b : Bytes} {p n : Nat} {f : Fault} (h : readRange b p n = .error f) : ¬ OnlyFault f := by
  unfold readRange at h
  split at h
  · simp only [Except.error.injEq] at h
    subst h
    simp [OnlyFault]
  · simp at h

theorem read_target {m : Mem} {a n : Nat} {start : Nat} {bytes : Bytes} (h : readRange m.decoded.text (start + a) n = .ok bytes) :
    m.read (Ptr.add ⟨.decoded m.decoded.version, start⟩ a) n = .ok bytes := by
  unfold readRange at h
  unfold Mem.read Ptr.add Mem.block
  simp only [if_true]
  split at h
  · simp at h
  · rename_i hr
    rw [if_neg hr]
    simp only [Except.ok.injEq] at h ⊢
    exact h

/-- The `while` loop of `DecodeCopy`. -/
theorem copyTarget_eq {env : BodyEnv} {fuel : Nat} : ∀ {P : Level} (_ : Room P env) {a t n : Nat},
    (∀ d, Vcd.copyTarget env fuel P.mem.decoded.text a t n = .ok d →
      Level.copyTarget P.targetSegment fuel P a t n = .ok (P.setText d) ∧ ∃ x, d = P.mem.decoded.text ++ x) ∧
    ∀ f, Vcd.copyTarget env fuel P.mem.decoded.text a t n = .error f → ¬ OnlyFault f := by
  induction fuel with
  | zero =>
    intro P h a t n
    refine ⟨fun d hd => by simp [Vcd.copyTarget] at hd, fun f hf => ?_⟩
    simp only [Vcd.copyTarget, Except.error.injEq] at hf
    subst hf
    simp [OnlyFault]
  | succ fuel ih =>
    intro P h a t n
    unfold Vcd.copyTarget Level.copyTarget
    have es : P.targetSegment = ⟨.decoded P.mem.decoded.version, env.startPos⟩ := by unfold Level.targetSegment; rw [h.start]
    by_cases hn : n > szSub t a
    · simp only [hn, if_true]
      cases hr : readRange P.mem.decoded.text (env.startPos + a) (szSub t a) with
      | error f =>
        refine ⟨fun d hd => by simp [error_bind] at hd, fun g hg => ?_⟩
        simp only [error_bind, Except.error.injEq] at hg
        subst hg
        exact readRange_fault hr
      | ok bytes =>
        have h1 := read_target hr
        rw [← es] at h1
        simp only [ok_bind, h1]
        cases hap : appendTarget env P.mem.decoded.text bytes with
        | error f =>
          refine ⟨fun d hd => by simp [error_bind] at hd, fun g hg => ?_⟩
          simp only [error_bind, Except.error.injEq] at hg
          subst hg
          exact appendTarget_fault hap
        | ok d1 =>
          obtain ⟨h2, h3⟩ := append_eq h hap
          simp only [ok_bind, h2]
          obtain ⟨k1, k2⟩ := ih (P := P.setText d1) ⟨h.start, h.cap⟩ (a := a + szSub t a) (t := t + szSub t a) (n := n - szSub t a)
          refine ⟨fun d hd => ?_, fun f hf => k2 f hf⟩
          obtain ⟨k3, x, k4⟩ := k1 d hd
          refine ⟨k3, bytes ++ x, ?_⟩
          rw [k4]
          show d1 ++ x = _
          rw [h3, List.append_assoc]
    · simp only [hn, if_false]
      cases hr : readRange P.mem.decoded.text (env.startPos + a) n with
      | error f =>
        refine ⟨fun d hd => by simp [error_bind] at hd, fun g hg => ?_⟩
        simp only [error_bind, Except.error.injEq] at hg
        subst hg
        exact readRange_fault hr
      | ok bytes =>
        have h1 := read_target hr
        rw [← es] at h1
        simp only [ok_bind, h1]
        refine ⟨fun d hd => ?_, fun f hf => appendTarget_fault hf⟩
        obtain ⟨h2, h3⟩ := append_eq h hd
        exact ⟨by rw [h2], bytes, h3⟩

/-! ### The source segment -/

/-- `source_segment_ptr_` points to the source segment. -/
structure SourceRel (w : Window) (m : Mem) (hdr : WinHeader) : Prop where
  len : hdr.source.length = hdr.srcLen
  none : w.source = none → hdr.srcLen = 0
  some : ∀ p, w.source = some p → (p.buf = .dict ∨ p.buf = .decoded m.decoded.version) ∧ Holds m p hdr.source

theorem SourceRel.grow {w w' : Window} {m m' : Mem} {hdr : WinHeader} (h : SourceRel w m hdr) (hw : w'.source = w.source)
    (hd : m'.dict = m.dict) (hv : m'.decoded.version = m.decoded.version) {x : Bytes} (ht : m'.decoded.text = m.decoded.text ++ x) :
    SourceRel w' m' hdr := by
  refine ⟨h.len, fun h1 => h.none (hw ▸ h1), fun p h1 => ?_⟩
  obtain ⟨h2, pre, post, h3, h4⟩ := h.some p (hw ▸ h1)
  rcases h2 with h2 | h2
  · refine ⟨Or.inl h2, pre, post, ?_, h4⟩
    rw [h2] at h3 ⊢
    simp only [Mem.block] at h3 ⊢
    rw [hd]; exact h3
  · refine ⟨Or.inr (by rw [hv]; exact h2), pre, post ++ x, ?_, h4⟩
    rw [h2] at h3 ⊢
    simp only [Mem.block, if_true, Option.some.injEq, hv] at h3 ⊢
    rw [ht, h3, List.append_assoc]

theorem copySource_eq {P : Level} {env : BodyEnv} (h : Room P env) (hs : SourceRel P.window P.mem env.hdr) {a n : Nat} {bytes d : Bytes}
    (hr : readRange env.hdr.source a n = .ok bytes) (hd : appendTarget env P.mem.decoded.text bytes = .ok d) :
    P.copySource a n = .ok (P.setText d) ∧ d = P.mem.decoded.text ++ bytes := by
  obtain ⟨h1, h2⟩ := append_eq h hd
  refine ⟨?_, h2⟩
  unfold readRange at hr
  split at hr
  · simp at hr
  rename_i hl
  simp only [Except.ok.injEq] at hr
  unfold Level.copySource
  cases hp : P.window.source with
  | none =>
    have := hs.none hp
    have := hs.len
    have h0 : a = 0 ∧ n = 0 := by omega
    simp only
    rw [if_pos h0]
    have : bytes = [] := by rw [← hr, h0.2, List.take_zero]
    rw [← h1, this]
  | some p =>
    simp only
    rw [(hs.some p hp).2.read (by omega), ok_bind, hr, h1]

/-- Copying. -/
theorem copyBytes_eq {P : Level} {env : BodyEnv} (h : Room P env) (hs : SourceRel P.window P.mem env.hdr)
    (hl : P.window.sourceLen = env.hdr.srcLen) {t a n : Nat} :
    (∀ d, Vcd.copyBytes env P.mem.decoded.text t a n = .ok d →
      P.copyBytes t a n = .ok (P.setText d) ∧ ∃ x, d = P.mem.decoded.text ++ x) ∧
    ∀ f, Vcd.copyBytes env P.mem.decoded.text t a n = .error f → ¬ OnlyFault f := by
  unfold Vcd.copyBytes Level.copyBytes
  rw [hl]
  by_cases h1 : a + n ≤ env.hdr.srcLen
  · simp only [h1, if_true]
    cases hr : readRange env.hdr.source a n with
    | error f =>
      refine ⟨fun d hd => by simp [error_bind] at hd, fun g hg => ?_⟩
      simp only [error_bind, Except.error.injEq] at hg
      subst hg
      exact readRange_fault hr
    | ok bytes =>
      simp only [ok_bind]
      refine ⟨fun d hd => ?_, fun f hf => appendTarget_fault hf⟩
      obtain ⟨h2, h3⟩ := copySource_eq h hs hr hd
      exact ⟨h2, bytes, h3⟩
  · simp only [h1, if_false]
    by_cases h2 : a < env.hdr.srcLen
    · simp only [h2, if_true]
      cases hr : readRange env.hdr.source a (env.hdr.srcLen - a) with
      | error f =>
        refine ⟨fun d hd => by simp [error_bind] at hd, fun g hg => ?_⟩
        simp only [error_bind, Except.error.injEq] at hg
        subst hg
        exact readRange_fault hr
      | ok bytes =>
        simp only [ok_bind]
        cases hap : appendTarget env P.mem.decoded.text bytes with
        | error f =>
          refine ⟨fun d hd => by simp [error_bind] at hd, fun g hg => ?_⟩
          simp only [error_bind, Except.error.injEq] at hg
          subst hg
          exact appendTarget_fault hap
        | ok d1 =>
          obtain ⟨h3, h4⟩ := copySource_eq h hs hr hap
          simp only [ok_bind, h3]
          obtain ⟨k1, k2⟩ := copyTarget_eq (env := env) (fuel := n - (env.hdr.srcLen - a) + 1) (P := P.setText d1) ⟨h.start, h.cap⟩ (a := 0)
            (t := t + (env.hdr.srcLen - a)) (n := n - (env.hdr.srcLen - a))
          refine ⟨fun d hd => ?_, fun f hf => k2 f hf⟩
          obtain ⟨k3, x, k4⟩ := k1 d hd
          refine ⟨k3, bytes ++ x, ?_⟩
          rw [k4]
          show d1 ++ x = _
          rw [h4, List.append_assoc]
    · simp only [h2, if_false]
      exact copyTarget_eq h

/-! ### The body of a window -/

/-- The sections hold what is left of them. -/
def Secs (w : Window) (m : Mem) (env : BodyEnv) (inst data addr : Bytes) : Prop :=
  (env.hdr.interleaved = true ∧ ∃ i c, Shared w m i ∧ m.objects[i]? = some (some c) ∧ At m c inst ∧ w.reader.position = some (i, c.stop)) ∨
  (env.hdr.interleaved = false ∧ ∃ i j k ci cj ck, Separate w m i j k ∧
    m.objects[i]? = some (some ci) ∧ At m ci inst ∧ w.reader.position = some (i, ci.stop) ∧
    m.objects[j]? = some (some cj) ∧ At m cj data ∧ m.objects[k]? = some (some ck) ∧ At m ck addr)

/-- The state of `DecodeBody` with and without pointers. -/
structure BodyRel (P : Level) (env : BodyEnv) (b : Body) : Prop where
  table : P.window.reader.table = env.table
  pending : P.window.reader.pending = b.pending
  cache : P.cache = some b.cache
  decoded : P.mem.decoded.text = b.decoded
  room : Room P env
  sourceLen : P.window.sourceLen = env.hdr.srcLen
  targetLen : P.window.targetLen = env.hdr.targetLen
  checksum : P.window.checksum = env.hdr.checksum
  low : env.startPos ≤ b.decoded.length
  source : SourceRel P.window P.mem env.hdr
  secs : Secs P.window P.mem env b.inst b.data b.addr

theorem Secs.tidy {w : Window} {m : Mem} {env : BodyEnv} {a b c : Bytes} (h : Secs w m env a b c) : Tidy w m := by
  rcases h with ⟨_, i, _, h, _⟩ | ⟨_, i, j, k, _, _, _, h, _⟩
  · exact Or.inr (Or.inl ⟨i, h⟩)
  · exact Or.inr (Or.inr ⟨i, j, k, h⟩)

theorem Secs.interleaved {P : Level} {env : BodyEnv} {a b c : Bytes} (h : Secs P.window P.mem env a b c) :
    P.isInterleaved = env.hdr.interleaved := by
  unfold Level.isInterleaved
  rcases h with ⟨h0, i, _, h, _⟩ | ⟨h0, i, j, k, _, _, _, h, _⟩
  · rw [h0, h.addr]; rfl
  · rw [h0, h.addr]; rfl

/-- The object of a section has been moved, and nothing else. -/
theorem Separate.put {w w' : Window} {m m' : Mem} {i j k x : Nat} (h : Separate w m i j k) (hi : w'.inst = w.inst) (hd : w'.data = w.data)
    (ha : w'.addr = w.addr) {c' : Chunk} (ho : m'.objects = m.objects.set x (some c')) (hx : m.Live x) : Separate w' m' i j k := by
  refine ⟨hi.trans h.inst, hd.trans h.data, ha.trans h.addr, h.ij, h.ik, h.jk, fun l => ?_⟩
  rw [← h.live l, ← put_live hx c' l]
  unfold Mem.Live Mem.put
  rw [ho]

theorem Shared.put {w w' : Window} {m m' : Mem} {i x : Nat} (h : Shared w m i) (hi : w'.inst = w.inst) (hd : w'.data = w.data)
    (ha : w'.addr = w.addr) {c' : Chunk} (ho : m'.objects = m.objects.set x (some c')) (hx : m.Live x) : Shared w' m' i := by
  refine ⟨hi.trans h.inst, hd.trans h.data, ha.trans h.addr, fun l => ?_⟩
  rw [← h.live l, ← put_live hx c' l]
  unfold Mem.Live Mem.put
  rw [ho]

theorem shape_set {m m' : Mem} {i : Nat} {c c' : Chunk} (h : m.objects[i]? = some (some c)) (he : c'.ends = c.ends)
    (ho : m'.objects = m.objects.set i (some c')) : m'.shape = m.shape := by
  rw [← put_shape h he]
  unfold Mem.shape Mem.put
  rw [ho]

theorem set_get {m m' : Mem} {i : Nat} {c c' : Chunk} (h : m.objects[i]? = some (some c))
    (ho : m'.objects = m.objects.set i (some c')) : m'.objects[i]? = some (some c') := by
  rw [ho]; exact put_get h

theorem set_get_ne {m m' : Mem} {i j : Nat} {c' : Chunk} (h : i ≠ j)
    (ho : m'.objects = m.objects.set i (some c')) : m'.objects[j]? = m.objects[j]? := by
  rw [ho]; exact put_get_ne h

/-- The section that the instructions come from. -/
theorem Secs.inst {w : Window} {m : Mem} {env : BodyEnv} {inst data addr : Bytes} (h : Secs w m env inst data addr) :
    ∃ i c, w.inst.chunk = some i ∧ m.objects[i]? = some (some c) ∧ At m c inst ∧ w.reader.position = some (i, c.stop) ∧
      ∀ (c' : Chunk) (rest : Bytes) (w' : Window) (m' : Mem), c'.ends = c.ends → At m c' rest → w'.inst = w.inst → w'.data = w.data →
        w'.addr = w.addr → w'.reader.position = w.reader.position → SameInput m m' → m'.objects = m.objects.set i (some c') →
        Secs w' m' env rest data addr := by
  rcases h with ⟨h0, i, c, h1, h2, h3, h4⟩ | ⟨h0, i, j, k, ci, cj, ck, h1, h2, h3, h4, h5, h6, h7, h8⟩
  · refine ⟨i, c, by rw [h1.inst], h2, h3, h4, ?_⟩
    intro c' rest w' m' he ha w1 w2 w3 w4 hm ho
    refine Or.inl ⟨h0, i, c', h1.put w1 w2 w3 ho ⟨c, h2⟩, set_get h2 ho, ha.same hm, ?_⟩
    rw [w4, h4]
    exact congrArg (fun e => some (i, Prod.snd e)) he.symm
  · refine ⟨i, ci, by rw [h1.inst], h2, h3, h4, ?_⟩
    intro c' rest w' m' he ha w1 w2 w3 w4 hm ho
    refine Or.inr ⟨h0, i, j, k, c', cj, ck, h1.put w1 w2 w3 ho ⟨ci, h2⟩, set_get h2 ho, ha.same hm, ?_, ?_, h6.same hm, ?_, h8.same hm⟩
    · rw [w4, h4]
      exact congrArg (fun e => some (i, Prod.snd e)) he.symm
    · rw [set_get_ne h1.ij ho]; exact h5
    · rw [set_get_ne h1.ik ho]; exact h7

/-- The section that the data come from. -/
theorem Secs.data {w : Window} {m : Mem} {env : BodyEnv} {inst data addr : Bytes} (h : Secs w m env inst data addr) :
    ∃ j c, w.data.chunk = some j ∧ m.objects[j]? = some (some c) ∧ At m c (if env.hdr.interleaved then inst else data) ∧
      ∀ (c' : Chunk) (rest : Bytes) (w' : Window) (m' : Mem), c'.ends = c.ends → At m c' rest → w'.inst = w.inst → w'.data = w.data →
        w'.addr = w.addr → w'.reader.position = w.reader.position → SameInput m m' → m'.objects = m.objects.set j (some c') →
        Secs w' m' env (if env.hdr.interleaved then rest else inst) (if env.hdr.interleaved then data else rest) addr := by
  rcases h with ⟨h0, i, c, h1, h2, h3, h4⟩ | ⟨h0, i, j, k, ci, cj, ck, h1, h2, h3, h4, h5, h6, h7, h8⟩
  · refine ⟨i, c, by rw [h1.data], h2, by simpa [h0] using h3, ?_⟩
    intro c' rest w' m' he ha w1 w2 w3 w4 hm ho
    refine Or.inl ⟨h0, i, c', h1.put w1 w2 w3 ho ⟨c, h2⟩, set_get h2 ho, ?_, ?_⟩
    · simpa [h0] using ha.same hm
    · rw [w4, h4]
      exact congrArg (fun e => some (i, Prod.snd e)) he.symm
  · refine ⟨j, cj, by rw [h1.data], h5, by simpa [h0] using h6, ?_⟩
    intro c' rest w' m' he ha w1 w2 w3 w4 hm ho
    refine Or.inr ⟨h0, i, j, k, ci, c', ck, h1.put w1 w2 w3 ho ⟨cj, h5⟩, ?_, ?_, by rw [w4, h4], set_get h5 ho, ?_, ?_, h8.same hm⟩
    · rw [set_get_ne h1.ij.symm ho]; exact h2
    · simpa [h0] using h3.same hm
    · simpa [h0] using ha.same hm
    · rw [set_get_ne h1.jk ho]; exact h7

/-- The section that the addresses come from. -/
theorem Secs.addr {w : Window} {m : Mem} {env : BodyEnv} {inst data addr : Bytes} (h : Secs w m env inst data addr) :
    ∃ k c, w.addr.chunk = some k ∧ m.objects[k]? = some (some c) ∧ At m c (if env.hdr.interleaved then inst else addr) ∧
      ∀ (c' : Chunk) (rest : Bytes) (w' : Window) (m' : Mem), c'.ends = c.ends → At m c' rest → w'.inst = w.inst → w'.data = w.data →
        w'.addr = w.addr → w'.reader.position = w.reader.position → SameInput m m' → m'.objects = m.objects.set k (some c') →
        Secs w' m' env (if env.hdr.interleaved then rest else inst) data (if env.hdr.interleaved then addr else rest) := by
  rcases h with ⟨h0, i, c, h1, h2, h3, h4⟩ | ⟨h0, i, j, k, ci, cj, ck, h1, h2, h3, h4, h5, h6, h7, h8⟩
  · refine ⟨i, c, by rw [h1.addr], h2, by simpa [h0] using h3, ?_⟩
    intro c' rest w' m' he ha w1 w2 w3 w4 hm ho
    refine Or.inl ⟨h0, i, c', h1.put w1 w2 w3 ho ⟨c, h2⟩, set_get h2 ho, ?_, ?_⟩
    · simpa [h0] using ha.same hm
    · rw [w4, h4]
      exact congrArg (fun e => some (i, Prod.snd e)) he.symm
  · refine ⟨k, ck, by rw [h1.addr], h7, by simpa [h0] using h8, ?_⟩
    intro c' rest w' m' he ha w1 w2 w3 w4 hm ho
    refine Or.inr ⟨h0, i, j, k, ci, cj, c', h1.put w1 w2 w3 ho ⟨ck, h7⟩, ?_, ?_, by rw [w4, h4], ?_, h6.same hm, set_get h7 ho, ?_⟩
    · rw [set_get_ne h1.ik.symm ho]; exact h2
    · simpa [h0] using h3.same hm
    · rw [set_get_ne h1.jk.symm ho]; exact h5
    · simpa [h0] using ha.same hm

/-- A step of the body: the pieces of the state that change. -/
theorem BodyRel.step {P P' : Level} {env : BodyEnv} {b b' : Body} (h : BodyRel P env b) (hf : Frame P P')
    (hp : P'.window.reader.pending = b'.pending) (hc : P'.cache = some b'.cache) {x : Bytes} (hd : P'.mem.decoded.text = P.mem.decoded.text ++ x)
    (hb : b'.decoded = b.decoded ++ x) (hs : Secs P'.window P'.mem env b'.inst b'.data b'.addr) : BodyRel P' env b' := by
  have e := hf.1
  refine ⟨(congrArg (·.window.reader.table) e).trans h.table, hp, hc, by rw [hd, h.decoded, hb], ⟨?_, ?_⟩, ?_, ?_, ?_, ?_, ?_, hs⟩
  · exact (congrArg (·.window.startPos) e).trans h.room.start
  · have : P'.mem.decoded.capacity = P.mem.decoded.capacity := congrArg (·.mem.decoded.capacity) e
    rw [this]; exact h.room.cap
  · exact (congrArg (·.window.sourceLen) e).trans h.sourceLen
  · exact (congrArg (·.window.targetLen) e).trans h.targetLen
  · exact (congrArg (·.window.checksum) e).trans h.checksum
  · rw [hb, List.length_append]; have := h.low; omega
  · exact h.source.grow (congrArg (·.window.source) e) (congrArg (·.mem.dict) e) (congrArg (·.mem.decoded.version) e) hd

/-! ### One instruction -/

/-- What one instruction does with and without pointers. -/
def ExecRel (P : Level) (env : BodyEnv) (after : Bytes → AddrCache → Bytes → Body) (r : Except Bad (Outcome × Level)) : Exec → Prop
  | .ok rest cache decoded => ∃ P', r = .ok (.ok, P') ∧ Frame P P' ∧ BodyRel P' env (after rest cache decoded) ∧
      P'.window.reader = P.window.reader
  | .endOfData => r = .ok (.endOfData, P)
  | .error => r = .ok (.error, P)
  | .fault f => OnlyFault f → r = .error (.fault f)

theorem ofAppend_rel {P : Level} {env : BodyEnv} {after : Bytes → AddrCache → Bytes → Body} {r : Except Bad (Outcome × Level)}
    {rest : Bytes} {cache : AddrCache} {e : Except Fault Bytes}
    (hok : ∀ d, e = .ok d → ExecRel P env after r (.ok rest cache d)) (hf : ∀ f, e = .error f → ¬ OnlyFault f) :
    ExecRel P env after r (.ofAppend rest cache e) := by
  cases e with
  | ok d => exact hok d rfl
  | error f => exact fun h => absurd h (hf f rfl)

theorem afterExec_data (env : BodyEnv) (b : Body) {ty : UInt8} (hty : ty ≠ vcdCopy) (s : Bytes) (p : Option UInt8) (r : Bytes) (c : AddrCache)
    (d : Bytes) : b.afterExec env ty s p r c d =
      { pending := p, inst := if env.hdr.interleaved then r else s, data := if env.hdr.interleaved then b.data else r, addr := b.addr,
        cache := c, decoded := d } := by
  unfold Body.afterExec
  cases env.hdr.interleaved <;> simp [hty]

theorem afterExec_copy (env : BodyEnv) (b : Body) (s : Bytes) (p : Option UInt8) (r : Bytes) (c : AddrCache)
    (d : Bytes) : b.afterExec env vcdCopy s p r c d =
      { pending := p, inst := if env.hdr.interleaved then r else s, data := b.data, addr := if env.hdr.interleaved then b.addr else r,
        cache := c, decoded := d } := by
  unfold Body.afterExec
  cases env.hdr.interleaved <;> simp

/-- Taking bytes from the data section and appending something. -/
theorem fromData_rel {P : Level} {env : BodyEnv} {b : Body} {s : Bytes} {pend : Option UInt8}
    (h : BodyRel P env { b with inst := s, pending := pend }) {ty : UInt8} (hty : ty ≠ vcdCopy) {j : Nat} {c : Chunk} {front rest : Bytes}
    (h1 : P.window.data.chunk = some j) (h2 : P.mem.objects[j]? = some (some c)) (h3 : At P.mem c (front ++ rest))
    (h4 : ∀ (c' : Chunk) (rest : Bytes) (w' : Window) (m' : Mem), c'.ends = c.ends → At P.mem c' rest → w'.inst = P.window.inst →
        w'.data = P.window.data → w'.addr = P.window.addr → w'.reader.position = P.window.reader.position → SameInput P.mem m' →
        m'.objects = P.mem.objects.set j (some c') →
        Secs w' m' env (if env.hdr.interleaved then rest else s) (if env.hdr.interleaved then b.data else rest) b.addr)
    {bytes d : Bytes} (hd : appendTarget env b.decoded bytes = .ok d) {n : Nat} (hn : n = front.length) :
    ExecRel P env (b.afterExec env ty s pend) (do
      let m ← (P.append bytes).window.data.advance (P.append bytes).mem n
      .ok (.ok, { P.append bytes with mem := m })) (.ok rest b.cache d) := by
  obtain ⟨k1, k2⟩ := append_eq h.room (by rw [h.decoded]; exact hd)
  rw [k1]
  simp only [Section.advance, Level.setText, h1]
  rw [get_live (m := { P.mem with decoded := { P.mem.decoded with text := d } }) h2, ok_bind, h3.advance hn, ok_bind, ok_bind]
  have hf : (Mem.put { P.mem with decoded := { P.mem.decoded with text := d } } j { c with pos := c.pos.add n }).shape = P.mem.shape :=
    put_shape (m := { P.mem with decoded := { P.mem.decoded with text := d } }) h2 rfl
  refine ⟨_, rfl, ⟨rfl, hf⟩, ?_, rfl⟩
  rw [afterExec_data env b hty]
  refine h.step (x := bytes) ⟨rfl, hf⟩ h.pending h.cache k2 ?_ ?_
  · rw [k2, h.decoded]
  · exact h4 { c with pos := c.pos.add n } _ _ _ rfl (h3.move hn) rfl rfl rfl rfl ⟨rfl, rfl, rfl⟩ rfl

theorem decodeAdd_rel {P : Level} {env : BodyEnv} {b : Body} {s : Bytes} {pend : Option UInt8}
    (h : BodyRel P env { b with inst := s, pending := pend }) {ty : UInt8} (hty : ty ≠ vcdCopy) (size : Nat) :
    ExecRel P env (b.afterExec env ty s pend) (P.decodeAdd size)
      (Vcd.decodeAdd env b.cache b.decoded (if env.hdr.interleaved then s else b.data) size) := by
  obtain ⟨j, c, h1, h2, h3, h4⟩ := h.secs.data
  dsimp only at h3 h4
  obtain ⟨st, hst⟩ : ∃ st, st = if env.hdr.interleaved = true then s else b.data := ⟨_, rfl⟩
  rw [← hst] at h3 ⊢
  unfold Level.decodeAdd Vcd.decodeAdd
  rw [h1, get_live h2, ok_bind, h3.unparsedSize, ok_bind]
  by_cases hs : size > st.length
  · rw [if_pos hs, if_pos hs]
    rfl
  · rw [if_neg hs, if_neg hs, h3.holds.read0 (by omega), ok_bind]
    refine ofAppend_rel (fun d hd => ?_) (fun f hf => appendTarget_fault hf)
    refine fromData_rel h hty h1 h2 (front := st.take size) ?_ h4 hd ?_
    · rw [List.take_append_drop]; exact h3
    · rw [List.length_take]; omega

theorem decodeRun_rel {P : Level} {env : BodyEnv} {b : Body} {s : Bytes} {pend : Option UInt8}
    (h : BodyRel P env { b with inst := s, pending := pend }) {ty : UInt8} (hty : ty ≠ vcdCopy) (size : Nat) :
    ExecRel P env (b.afterExec env ty s pend) (P.decodeRun size)
      (Vcd.decodeRun env b.cache b.decoded (if env.hdr.interleaved then s else b.data) size) := by
  obtain ⟨j, c, h1, h2, h3, h4⟩ := h.secs.data
  dsimp only at h3 h4
  obtain ⟨st, hst⟩ : ∃ st, st = if env.hdr.interleaved = true then s else b.data := ⟨_, rfl⟩
  rw [← hst] at h3 ⊢
  unfold Level.decodeRun Vcd.decodeRun
  rw [h1, get_live h2, ok_bind, h3.unparsedSize, ok_bind]
  cases st with
  | nil => rfl
  | cons x st =>
    simp only
    rw [if_neg (by simp), h3.holds.read0 (by simp), ok_bind]
    refine ofAppend_rel (fun d hd => ?_) (fun f hf => appendTarget_fault hf)
    exact fromData_rel h hty h1 h2 (front := [x]) h3 h4 hd rfl

theorem decodeCopy_rel {P : Level} {env : BodyEnv} {b : Body} {s : Bytes} {pend : Option UInt8}
    (h : BodyRel P env { b with inst := s, pending := pend }) (size : Nat) (mode : UInt8) :
    ExecRel P env (b.afterExec env vcdCopy s pend) (P.decodeCopy size mode)
      (Vcd.decodeCopy env b.cache b.decoded (if env.hdr.interleaved then s else b.addr) size mode) := by
  obtain ⟨k, c, h1, h2, h3, h4⟩ := h.secs.addr
  dsimp only at h3 h4
  obtain ⟨st, hst⟩ : ∃ st, st = if env.hdr.interleaved = true then s else b.addr := ⟨_, rfl⟩
  rw [← hst] at h3 ⊢
  have ht : P.targetBytesDecoded = Vcd.Level.targetBytesDecoded env.startPos b.decoded := by
    unfold Level.targetBytesDecoded Vcd.Level.targetBytesDecoded
    rw [h.decoded, h.room.start]
  unfold Level.decodeCopy Vcd.decodeCopy
  simp only [h.cache, h1, get_live h2, ok_bind, h3.view, ht, h.sourceLen]
  cases hda : b.cache.decodeAddress (toInt32 (env.hdr.srcLen + Vcd.Level.targetBytesDecoded env.startPos b.decoded)) mode.toNat st with
  | error => rfl
  | endOfData => rfl
  | fault f => exact fun _ => rfl
  | ok address rest cache' =>
    simp only
    obtain ⟨pre, hpre, _⟩ := decodeAddress_rest hda
    have h3' : At P.mem c (pre ++ rest) := by rw [← hpre]; exact h3
    have hn : st.length - rest.length = pre.length := by rw [hpre]; simp
    have hmv := h3'.move hn
    obtain ⟨Q, hQ⟩ : ∃ Q : Level, Q = { P with cache := some cache', mem := P.mem.put k { c with pos := c.pos.add (st.length - rest.length) } } :=
      ⟨_, rfl⟩
    rw [← hQ]
    have hf : Frame P Q := ⟨by rw [hQ]; rfl, by rw [hQ]; exact put_shape h2 rfl⟩
    have hQt : Q.mem.decoded.text = b.decoded := by rw [hQ]; exact h.decoded
    have hQr : Room Q env := ⟨by rw [hQ]; exact h.room.start, by rw [hQ]; exact h.room.cap⟩
    have hQs : SourceRel Q.window Q.mem env.hdr := by
      rw [hQ]
      exact h.source.grow (x := []) rfl rfl rfl (by simp [Mem.put])
    obtain ⟨k1, k2⟩ := copyBytes_eq hQr hQs (by rw [hQ]; exact h.sourceLen) (t := Vcd.Level.targetBytesDecoded env.startPos b.decoded)
      (a := address) (n := size)
    rw [hQt] at k1 k2
    refine ofAppend_rel (fun d hd => ?_) k2
    obtain ⟨k3, x, k4⟩ := k1 d hd
    rw [k3, ok_bind]
    have hf2 : Frame P (Q.setText d) := hf.trans ⟨rfl, rfl⟩
    refine ⟨_, rfl, hf2, ?_, by rw [hQ]; rfl⟩
    rw [afterExec_copy env b]
    refine h.step (x := x) hf2 (by rw [hQ]; exact h.pending) (by rw [hQ]; rfl) ?_ k4 ?_
    · show d = _
      rw [k4, h.decoded]
    · exact h4 { c with pos := c.pos.add (st.length - rest.length) } _ _ _ rfl hmv (by rw [hQ]; rfl) (by rw [hQ]; rfl) (by rw [hQ]; rfl) (by rw [hQ]; rfl) (by rw [hQ]; exact ⟨rfl, rfl, rfl⟩)
        (by rw [hQ]; rfl)

theorem execute_rel {P : Level} {env : BodyEnv} {b : Body} {s : Bytes} {pend : Option UInt8}
    (h : BodyRel P env { b with inst := s, pending := pend }) (ty : UInt8) (size : Nat) (mode : UInt8) :
    ExecRel P env (b.afterExec env ty s pend) (P.execute ty size mode) (Vcd.execute env b ty size mode s) := by
  unfold Level.execute Vcd.execute
  simp only
  by_cases h1 : ty = vcdAdd
  · rw [if_pos h1, if_pos h1]
    exact decodeAdd_rel h (by rw [h1]; decide) size
  rw [if_neg h1, if_neg h1]
  by_cases h2 : ty = vcdRun
  · rw [if_pos h2, if_pos h2]
    exact decodeRun_rel h (by rw [h2]; decide) size
  rw [if_neg h2, if_neg h2]
  by_cases h3 : ty = vcdCopy
  · rw [if_pos h3, if_pos h3, h3]
    exact decodeCopy_rel h size mode
  rw [if_neg h3, if_neg h3]
  rfl

/-! ### The loop -/

/-- What the loop of `DecodeBody` does with and without pointers. -/
def LoopRel (P : Level) (env : BodyEnv) (chunk : Chunk) (r : Except Bad (Outcome × Level × Chunk)) : BodyResult → Prop
  | .ok b => ∃ P', r = .ok (.ok, P', chunk) ∧ Frame P P' ∧ BodyRel P' env b
  | .endOfData b => ∃ P', r = P'.stopBody chunk ∧ Frame P P' ∧ BodyRel P' env b
  | .error => ∃ P', r = .ok (.error, P', chunk) ∧ Frame P P'
  | .fault f => OnlyFault f → r = .error (.fault f)

theorem LoopRel.trans {P Q : Level} {env : BodyEnv} {chunk : Chunk} {r : Except Bad (Outcome × Level × Chunk)} {x : BodyResult}
    (hf : Frame P Q) (h : LoopRel Q env chunk r x) : LoopRel P env chunk r x := by
  cases x with
  | ok b => obtain ⟨P', h1, h2, h3⟩ := h; exact ⟨P', h1, hf.trans h2, h3⟩
  | endOfData b => obtain ⟨P', h1, h2, h3⟩ := h; exact ⟨P', h1, hf.trans h2, h3⟩
  | error => obtain ⟨P', h1, h2⟩ := h; exact ⟨P', h1, hf.trans h2⟩
  | fault f => exact h

theorem bodyLoop_rel {env : BodyEnv} {chunk : Chunk} {fuel : Nat} : ∀ {P : Level} {b : Body} (_ : BodyRel P env b),
    LoopRel P env chunk (Level.bodyLoop fuel P chunk) (Vcd.bodyLoop env fuel b) := by
  induction fuel with
  | zero => intro P b h; intro hf; simp [OnlyFault] at hf
  | succ fuel ih =>
    intro P b h
    have ht : P.targetBytesDecoded = Vcd.Level.targetBytesDecoded env.startPos b.decoded := by
      unfold Level.targetBytesDecoded Vcd.Level.targetBytesDecoded
      rw [h.decoded, h.room.start]
    have hge : getNextInstruction P.window.reader.table P.window.reader.pending b.inst = getNextInstruction env.table b.pending b.inst := by
      rw [h.table, h.pending]
    rw [Level.bodyLoop, Vcd.bodyLoop]
    by_cases hlt : Vcd.Level.targetBytesDecoded env.startPos b.decoded < env.hdr.targetLen
    · have hlt' : P.targetBytesDecoded < P.window.targetLen := by rw [ht, h.targetLen]; exact hlt
      rw [if_pos hlt']
      simp only [hlt, if_true]
      obtain ⟨i, c, h1, h2, h3, h4, h5⟩ := h.secs.inst
      obtain ⟨c', pend, n1, n2, n3, n4⟩ := next_eq h4 h2 h3
      rw [hge] at n1 n3 n4
      rw [n1, ok_bind]
      have hf : Frame P { P with mem := P.mem.put i c', window := { P.window with
          reader := { P.window.reader with lastStart := some c.pos, lastPending := P.window.reader.pending, pending := pend } } } :=
        ⟨rfl, put_shape h2 n2⟩
      have hrel : ∀ rest, At P.mem c' rest → BodyRel { P with mem := P.mem.put i c', window := { P.window with
          reader := { P.window.reader with lastStart := some c.pos, lastPending := P.window.reader.pending, pending := pend } } } env
          { b with inst := rest, pending := pend } := by
        intro rest ha
        exact h.step (x := []) hf rfl h.cache (by simp [Mem.put]) (by simp) (h5 c' rest _ _ n2 ha rfl rfl rfl rfl ⟨rfl, rfl, rfl⟩ rfl)
      obtain ⟨Q, hQ⟩ : ∃ Q : Level, Q = { P with mem := P.mem.put i c', window := { P.window with
          reader := { P.window.reader with lastStart := some c.pos, lastPending := P.window.reader.pending, pending := pend } } } := ⟨_, rfl⟩
      cases hg : getNextInstruction env.table b.pending b.inst with
      | endOfData rest p =>
        obtain ⟨ha, hp⟩ := n4 rest p hg
        subst hp
        exact ⟨_, rfl, hf, hrel rest ha⟩
      | error => exact ⟨_, rfl, hf⟩
      | inst ty sz md rest p =>
        obtain ⟨ha, hp⟩ := n3 ty sz md rest p hg
        subst hp
        have hr := hrel rest ha
        simp only [nextOf]
        rw [← hQ] at hr hf ⊢
        have ht' : Q.targetBytesDecoded = Vcd.Level.targetBytesDecoded env.startPos b.decoded := by
          unfold Level.targetBytesDecoded Vcd.Level.targetBytesDecoded
          rw [hr.decoded, hr.room.start]
        rw [ht', h.targetLen]
        by_cases hbig : sz > env.hdr.targetLen ∨ sz + Vcd.Level.targetBytesDecoded env.startPos b.decoded > env.hdr.targetLen
        · rw [if_pos hbig, if_pos hbig]
          exact ⟨_, rfl, hf⟩
        · rw [if_neg hbig, if_neg hbig]
          have hx := execute_rel hr ty sz md
          cases he : Vcd.execute env b ty sz md rest with
          | ok rest' cache' d =>
            rw [he] at hx
            obtain ⟨P', x1, x2, x3, -⟩ := hx
            rw [x1, ok_bind]
            exact (ih x3).trans (hf.trans x2)
          | error =>
            rw [he] at hx
            change Q.execute ty sz md = _ at hx
            rw [hx, ok_bind]
            exact ⟨_, rfl, hf⟩
          | fault f =>
            rw [he] at hx
            intro hof
            rw [hx hof, error_bind]
          | endOfData =>
            rw [he] at hx
            change Q.execute ty sz md = _ at hx
            rw [hx, ok_bind]
            simp only
            have hu : Q.window.reader.unget Q.mem = .ok (P.mem.put i c, { P.window.reader with lastStart := some c.pos, lastPending := P.window.reader.pending, pending := P.window.reader.pending }) := by
              rw [hQ]
              unfold Reader.unget
              simp only [h4, get_live (put_get h2), ok_bind]
              unfold Ptr.diff
              rw [if_pos (by
                have := (hr.secs).inst
                have e1 := ha.startBuf
                have e2 := h3.startBuf
                have e3 : c'.start = c.start := congrArg Prod.fst n2
                rw [← e1, ← e2, e3]), ok_bind, put_put]
              have e3 : c'.start = c.start := congrArg Prod.fst n2
              have e4 : c'.stop = c.stop := congrArg Prod.snd n2
              simp only [e3, e4]
            rw [hu, ok_bind]
            refine ⟨_, rfl, ⟨by rw [hQ]; rfl, ?_⟩, ?_⟩
            · exact put_shape h2 rfl
            · have hf3 : Frame P { Q with mem := P.mem.put i c, window := { Q.window with
                  reader := { P.window.reader with lastStart := some c.pos, lastPending := P.window.reader.pending, pending := P.window.reader.pending } } } :=
                ⟨by rw [hQ]; rfl, put_shape h2 rfl⟩
              refine h.step (x := []) hf3 h.pending (by rw [hQ]; exact h.cache) (by simp [Mem.put]) (by simp) ?_
              exact h5 c b.inst _ _ rfl h3 (by rw [hQ]) (by rw [hQ]) (by rw [hQ]) rfl ⟨rfl, rfl, rfl⟩ rfl
    · have hlt' : ¬ P.targetBytesDecoded < P.window.targetLen := by rw [ht, h.targetLen]; exact hlt
      rw [if_neg hlt']
      simp only [hlt, if_false]
      exact ⟨P, rfl, Frame.refl P, h⟩

end Vcd.Lifetime
