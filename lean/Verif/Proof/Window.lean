import Verif.Proof.BodyExt

/-!
# `DecodeWindow`: invariant, progress, and behaviour when more input arrives
-/

namespace Vcd
open Spec

/-- The environment of a window's body. -/
def Level.env (L : Level) (hdr : WinHeader) : BodyEnv :=
  { table := L.table, hdr := hdr, startPos := L.startPos }

/-- The checks at the end of `DecodeBody` other than "instruction section is empty". -/
def bodyEndOk (env : BodyEnv) (b : Body) : Bool :=
  !(decide (Level.targetBytesDecoded env.startPos b.decoded ≠ env.hdr.targetLen)) &&
  !(env.hdr.checksum.any fun c =>
    computeAdler32 ((b.decoded.drop env.startPos).take env.hdr.targetLen) != c) &&
  (env.hdr.interleaved || (b.data == [] && b.addr == []))

theorem decodeBody_eq (env : BodyEnv) (b : Body) :
    decodeBody env b =
      match bodyRun env b with
      | .ok b' => if bodyEndOk env b' = true ∧ b'.inst = [] then .ok b' else .error
      | r => r := by
  rw [decodeBody, ← bodyRun]
  cases bodyRun env b with
  | ok b' =>
    simp only [bodyEndOk]
    by_cases h1 : Level.targetBytesDecoded env.startPos b'.decoded ≠ env.hdr.targetLen
    · simp [h1]
    · by_cases h2 : (env.hdr.checksum.any fun c =>
          computeAdler32 ((b'.decoded.drop env.startPos).take env.hdr.targetLen) != c) = true
      · simp [h1, h2]
      · by_cases h3 : b'.inst = []
        · by_cases h4 : env.hdr.interleaved = true
          · simp [h1, h2, h3, h4]
          · by_cases h5 : b'.data = [] <;> by_cases h6 : b'.addr = [] <;> simp [h1, h2, h3, h4, h5, h6]
        · simp [h1, h2, h3]
  | endOfData b' => rfl
  | error => rfl
  | fault f => rfl

/-- The state in which the body of an interleaved window is entered. -/
def interBody (L : Level) (w : OpenWindow) (c : AddrCache) (s : Bytes) : Body :=
  { pending := w.pending, inst := s.take w.expected, data := [], addr := [], cache := c,
    decoded := L.decoded }

/-- The members after a window has been completed. -/
def Level.closed (L : Level) (b : Body) : Level :=
  { L with cache := some b.cache, decoded := b.decoded, win := none, startPos := b.decoded.length }

/-- The members when a window has been interrupted. -/
def Level.suspended (L : Level) (w : OpenWindow) (e : Nat) (b : Body) : Level :=
  { L with cache := some b.cache, decoded := b.decoded,
           win := some { w with expected := e, pending := b.pending } }

theorem dwb_inter {L : Level} {w : OpenWindow} {c : AddrCache} {s : Bytes}
    (hi : w.hdr.interleaved = true) :
    decodeWindowBody L w c s =
      match bodyRun (L.env w.hdr) (interBody L w c s) with
      | .fault f => .fault f
      | .error => .error
      | .ok b' =>
        if bodyEndOk (L.env w.hdr) b' = true ∧ b'.inst = [] then
          .ok (L.closed b') (s.drop w.expected)
        else .error
      | .endOfData b' =>
        if w.expected - ((s.take w.expected).length - b'.inst.length) > 0 then
          .endOfData (L.suspended w
              (w.expected - ((s.take w.expected).length - b'.inst.length)) b')
            (s.drop ((s.take w.expected).length - b'.inst.length))
        else .error := by
  rw [decodeWindowBody, if_pos hi]
  dsimp only
  rw [decodeBody_eq]
  change (match (match bodyRun (L.env w.hdr) (interBody L w c s) with
    | .ok b' => if bodyEndOk (L.env w.hdr) b' = true ∧ b'.inst = [] then BodyResult.ok b' else .error
    | r => r) with
    | .fault f => _ | .error => _ | .ok b' => _ | .endOfData b' => _) = _
  cases bodyRun (L.env w.hdr) (interBody L w c s) with
  | error => rfl
  | fault f => rfl
  | endOfData b' => rfl
  | ok b' =>
    by_cases h : bodyEndOk (L.env w.hdr) b' = true ∧ b'.inst = []
    · simp only
      rw [if_pos h, if_pos h]
      simp only [Level.closed, h.2, List.length_nil, Nat.sub_zero]
      congr 1
      rw [List.length_take]
      by_cases hle : w.expected ≤ s.length
      · rw [Nat.min_eq_left hle]
      · rw [Nat.min_eq_right (by omega), List.drop_eq_nil_of_le (Nat.le_refl _),
          List.drop_eq_nil_of_le (by omega)]
    · simp only
      rw [if_neg h, if_neg h]

/-- Skip leading NOOPs in an open window and in its unparsed bytes. -/
def skipPair (L : Level) (r : Bytes) : Level × Bytes :=
  match L.win with
  | none => (L, r)
  | some w =>
    if w.pending = none then
      let sec := r.take w.expected
      let sec' := skipNoops L.table sec
      ({ L with win := some { w with expected := w.expected - (sec.length - sec'.length) } },
        sec' ++ r.drop w.expected)
    else (L, r)

/-- Skip leading NOOPs in the state left behind when the data ran out. -/
def WinResult.skip : WinResult → WinResult
  | .endOfData L r => .endOfData (skipPair L r).1 (skipPair L r).2
  | r => r

/-- The result of a suspended window after skipping NOOPs. -/
theorem skipPair_suspended (L : Level) (w : OpenWindow) (e : Nat) (b : Body) (tail : Bytes)
    (hl : b.inst.length ≤ e) (ht : b.inst.length < e → tail = []) :
    skipPair (L.suspended w e b) (b.inst ++ tail)
      = (L.suspended w (e - b.inst.length + (b.skip L.table).inst.length) (b.skip L.table),
         (b.skip L.table).inst ++ tail) := by
  have htake : (b.inst ++ tail).take e = b.inst := by
    by_cases h : b.inst.length < e
    · rw [ht h, List.append_nil]; exact List.take_of_length_le (by omega)
    · have : e = b.inst.length := by omega
      rw [this, List.take_left']; rfl
  have hdrop : (b.inst ++ tail).drop e = tail := by
    by_cases h : b.inst.length < e
    · rw [ht h, List.append_nil]; exact List.drop_eq_nil_of_le (by omega)
    · have : e = b.inst.length := by omega
      rw [this, List.drop_left']; rfl
  by_cases hp : b.pending = none
  · obtain ⟨pre, h1⟩ := skipNoops_suffix L.table b.inst
    have hlen := congrArg List.length h1
    rw [List.length_append] at hlen
    simp only [skipPair, Level.suspended, hp, if_true, htake, hdrop, Body.skip]
    congr 4
    omega
  · simp only [skipPair, Level.suspended, hp, if_false, Body.skip]
    congr 4
    omega

theorem Body.skip_fields (t : CodeTable) (b : Body) :
    (b.skip t).pending = b.pending ∧ (b.skip t).cache = b.cache ∧ (b.skip t).decoded = b.decoded := by
  unfold Body.skip; split <;> simp

/-- What is known about a window's body before its execution is continued. -/
structure OpenInv (L : Level) (w : OpenWindow) (c : AddrCache) (n m : Nat) : Prop where
  inter : w.hdr.interleaved = true
  win : WinInv (L.env w.hdr) L.decoded
  cache : CacheOk c n m

theorem OpenInv.body {L : Level} {w : OpenWindow} {c : AddrCache} {n m : Nat}
    (h : OpenInv L w c n m) (s : Bytes) : BodyInv (L.env w.hdr) n m (interBody L w c s) :=
  ⟨h.win, h.cache⟩

/-- An interleaved window: the possible outcomes. -/
theorem dwb_inter_inv {L : Level} {w : OpenWindow} {c : AddrCache} {n m : Nat}
    (h : OpenInv L w c n m) (s : Bytes) :
    (∀ L' r, decodeWindowBody L w c s = .ok L' r → r = s.drop w.expected ∧
      ∃ b', L' = L.closed b' ∧ CacheOk b'.cache n m ∧ (∃ bytes, b'.decoded = L.decoded ++ bytes) ∧
        b'.decoded.length = L.startPos + w.hdr.targetLen) ∧
    (∀ L' r, decodeWindowBody L w c s = .endOfData L' r →
      ∃ e b', L' = L.suspended w e b' ∧ 0 < e ∧ e ≤ w.expected ∧
        (∃ pre, s = pre ++ r ∧ e + pre.length = w.expected) ∧
        r = b'.inst ++ s.drop w.expected ∧ b'.inst.length ≤ e ∧
        (b'.inst.length < e → s.length < w.expected) ∧
        (b'.inst.length = e → w.expected ≤ s.length) ∧
        CacheOk b'.cache n m ∧ (∃ bytes, b'.decoded = L.decoded ++ bytes) ∧
        b'.decoded.length < L.startPos + w.hdr.targetLen ∧
        bodyRun (L.env w.hdr) (interBody L w c s) = .endOfData b' ∧
        b' = { interBody L w c s with
                 inst := b'.inst, pending := b'.pending, cache := b'.cache, decoded := b'.decoded } ∧
        bodyRun (L.env w.hdr) b' = .endOfData b' ∧
        (b'.pending = none → skipNoops L.table b'.inst = [] → b'.inst = [])) ∧
    (∀ f, decodeWindowBody L w c s = .fault f → f = .nearOverflow ∨ (f = .cacheOob ∧ n = 254)) := by
  have hb := h.body s
  obtain ⟨i1, i2, i3⟩ := bodyRun_inv _ hb
  rw [dwb_inter h.inter]
  cases hr : bodyRun (L.env w.hdr) (interBody L w c s) with
  | error => simp
  | fault f =>
    refine ⟨by simp, by simp, ?_⟩
    intro f' hf
    simp only [WinResult.fault.injEq] at hf
    subst hf
    exact i3 _ hr
  | ok b' =>
    obtain ⟨j1, j2, j3, j4⟩ := i1 _ hr
    simp only
    split
    · refine ⟨?_, by simp, by simp⟩
      intro L' r h'
      simp only [WinResult.ok.injEq] at h'
      obtain ⟨rfl, rfl⟩ := h'
      exact ⟨rfl, b', rfl, j1.cache, j2, j3⟩
    · simp
  | endOfData b' =>
    obtain ⟨j1, j2, j3, ⟨pre, j4⟩, j5, j6⟩ := i2 _ hr
    have j4' : s.take w.expected = pre ++ b'.inst := j4
    have hlen := congrArg List.length j4'
    rw [List.length_append] at hlen
    have hlt := List.length_take_le w.expected s
    have hdata : ∀ (b : Body) b', bodyRun (L.env w.hdr) b = .endOfData b' →
        b'.data = b.data ∧ b'.addr = b.addr := by
      intro b
      induction b using bodyRun_induct (L.env w.hdr) with | h b ih
      intro b' hb'
      rw [bodyRun_eq] at hb'
      split at hb'
      · cases hg : getNextInstruction (L.env w.hdr).table b.pending b.inst with
        | error => simp [hg] at hb'
        | endOfData r p => simp only [hg, BodyResult.endOfData.injEq] at hb'; subst hb'; exact ⟨rfl, rfl⟩
        | inst ty sz m r p =>
          simp only [hg] at hb'
          split at hb'
          · simp at hb'
          · cases he : execute (L.env w.hdr) b ty sz m r with
            | error => simp [he] at hb'
            | fault f => simp [he] at hb'
            | endOfData => simp only [he, BodyResult.endOfData.injEq] at hb'; subst hb'; exact ⟨rfl, rfl⟩
            | ok rest c d =>
              simp only [he] at hb'
              have := ih _ _ _ _ _ _ _ _ hg he _ hb'
              have hi : (L.env w.hdr).hdr.interleaved = true := h.inter
              simpa [Body.afterExec, hi] using this
      · simp at hb'
    obtain ⟨d1, d2⟩ := hdata _ _ hr
    simp only
    split
    · rename_i hpos
      refine ⟨by simp, ?_, by simp⟩
      intro L' r h'
      simp only [WinResult.endOfData.injEq] at h'
      obtain ⟨rfl, rfl⟩ := h'
      have hparsed : (s.take w.expected).length - b'.inst.length = pre.length := by omega
      rw [hparsed] at hpos ⊢
      have hs : s = pre ++ (b'.inst ++ s.drop w.expected) := by
        rw [← List.append_assoc, ← j4', List.take_append_drop]
      have hdrop : s.drop pre.length = b'.inst ++ s.drop w.expected := by
        conv => lhs; rw [hs]
        rw [List.drop_left']; rfl
      have hl2 : (s.take w.expected).length = min w.expected s.length := List.length_take
      refine ⟨_, b', rfl, hpos, by omega, ⟨pre, by rw [hdrop]; exact hs, by omega⟩, hdrop, by omega,
        by omega, by omega, j1.cache, j2, j3, rfl, ?_, j5, j6⟩
      cases b'
      simp only [interBody] at d1 d2 ⊢
      simp [d1, d2]
    · simp

end Vcd
