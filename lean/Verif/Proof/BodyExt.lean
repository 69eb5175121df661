import Verif.Proof.Body

/-!
# The loop of `DecodeBody`: invariant, and behaviour when more input arrives
-/

namespace Vcd
open Spec

/-- Invariant of the loop. -/
structure BodyInv (env : BodyEnv) (n s : Nat) (b : Body) : Prop where
  win : WinInv env b.decoded
  cache : CacheOk b.cache n s

/-- Skip leading opcodes that stand for two NOOPs. -/
def skipNoops (t : CodeTable) : Bytes → Bytes
  | [] => []
  | op :: s =>
    if (t.first op).inst = vcdNoop ∧ (t.second op).inst = vcdNoop then skipNoops t s else op :: s

theorem skipNoops_suffix (t : CodeTable) (s : Bytes) : ∃ pre, s = pre ++ skipNoops t s := by
  induction s with
  | nil => exact ⟨[], rfl⟩
  | cons op s ih =>
    rw [skipNoops]
    split
    · obtain ⟨pre, h⟩ := ih
      exact ⟨op :: pre, by rw [List.cons_append, ← h]⟩
    · exact ⟨[], rfl⟩

theorem skipNoops_idem (t : CodeTable) (s : Bytes) : skipNoops t (skipNoops t s) = skipNoops t s := by
  induction s with
  | nil => rfl
  | cons op s ih =>
    rw [skipNoops]
    split
    · exact ih
    · rename_i h; rw [skipNoops, if_neg h]

theorem skipNoops_append (t : CodeTable) (s u : Bytes) :
    skipNoops t (s ++ u) = if skipNoops t s = [] then skipNoops t u else skipNoops t s ++ u := by
  induction s with
  | nil => simp [skipNoops]
  | cons op s ih =>
    rw [List.cons_append, skipNoops, skipNoops]
    split
    · exact ih
    · simp

theorem fetchHalf_skip (t : CodeTable) (s : Bytes) :
    fetchHalf t (skipNoops t s) none = fetchHalf t s none := by
  induction s with
  | nil => rfl
  | cons op s ih =>
    rw [skipNoops]
    split
    · rename_i h
      rw [ih]
      conv => rhs; rw [fetchHalf]
      simp [h.1, h.2]
    · rfl

theorem fetchHalf_none {t : CodeTable} {s : Bytes} {p : Option UInt8} :
    fetchHalf t s p = none ↔ p = none ∧ skipNoops t s = [] := by
  induction s generalizing p with
  | nil =>
    cases p <;> simp [fetchHalf, skipNoops]
  | cons op s ih =>
    cases p with
    | some q => simp [fetchHalf]
    | none =>
      rw [fetchHalf, skipNoops]
      by_cases h1 : (t.first op).inst = vcdNoop
      · by_cases h2 : (t.second op).inst = vcdNoop
        · simp [h1, h2, ih]
        · simp only [h1, if_true, h2, ne_eq, not_false_eq_true, and_false, if_false, ih]
          simp
      · simp [h1]

/-- Skip leading NOOPs unless a second instruction is pending. -/
def Body.skip (t : CodeTable) (b : Body) : Body :=
  if b.pending = none then { b with inst := skipNoops t b.inst } else b

/-- Skip leading NOOPs in the state left behind when the data ran out. -/
def BodyResult.skip (t : CodeTable) : BodyResult → BodyResult
  | .endOfData b => .endOfData (b.skip t)
  | r => r

theorem Body.skip_skip (t : CodeTable) (b : Body) : (b.skip t).skip t = b.skip t := by
  unfold Body.skip
  by_cases h : b.pending = none
  · simp [h, skipNoops_idem]
  · simp [h]

/-- The result of the loop does not depend on leading NOOPs. -/
theorem bodyRun_skip (env : BodyEnv) (b : Body)
    (ht : Level.targetBytesDecoded env.startPos b.decoded < env.hdr.targetLen) :
    (bodyRun env (b.skip env.table)).skip env.table = (bodyRun env b).skip env.table := by
  by_cases h : b.pending = none
  · have hskip : b.skip env.table = { b with inst := skipNoops env.table b.inst } := by
      unfold Body.skip; rw [if_pos h]
    rw [hskip, bodyRun_eq, bodyRun_eq env b, if_pos ht, if_pos (by exact ht)]
    have hf := fetchHalf_skip env.table b.inst
    simp only [h, getNextInstruction, hf]
    cases hx : fetchHalf env.table b.inst none with
    | none => rfl
    | some x =>
      obtain ⟨hh, p, s⟩ := x
      simp only
      by_cases h0 : hh.size = 0
      · simp only [h0, if_true]
        cases parseVarint32 s with
        | endOfData =>
          simp [BodyResult.skip, Body.skip, skipNoops_idem]
        | error => rfl
        | ok v r =>
          simp only
          split
          · rfl
          · have he : execute env { b with pending := none, inst := skipNoops env.table b.inst } hh.inst v hh.mode r
                = execute env b hh.inst v hh.mode r := rfl
            rw [he]
            cases execute env b hh.inst v hh.mode r with
            | endOfData => simp [BodyResult.skip, Body.skip, skipNoops_idem, h]
            | error => rfl
            | fault f => rfl
            | ok r' c d => rfl
      · simp only [h0, if_false]
        split
        · rfl
        · have he : execute env { b with pending := none, inst := skipNoops env.table b.inst } hh.inst hh.size.toNat
              hh.mode s = execute env b hh.inst hh.size.toNat hh.mode s := rfl
          rw [he]
          cases execute env b hh.inst hh.size.toNat hh.mode s with
          | endOfData => simp [BodyResult.skip, Body.skip, skipNoops_idem, h]
          | error => rfl
          | fault f => rfl
          | ok r' c d => rfl
  · have : b.skip env.table = b := by unfold Body.skip; rw [if_neg h]
    rw [this]

/-- Two states that differ in leading NOOPs only lead to the same result. -/
theorem bodyRun_congr {env : BodyEnv} {b b' : Body} (h : b.skip env.table = b'.skip env.table)
    (ht : Level.targetBytesDecoded env.startPos b.decoded < env.hdr.targetLen) :
    (bodyRun env b).skip env.table = (bodyRun env b').skip env.table := by
  have hd : b'.decoded = b.decoded := by
    have := congrArg Body.decoded h
    have h1 : (b.skip env.table).decoded = b.decoded := by unfold Body.skip; split <;> rfl
    have h2 : (b'.skip env.table).decoded = b'.decoded := by unfold Body.skip; split <;> rfl
    rw [h1, h2] at this
    exact this.symm
  rw [← bodyRun_skip env b ht, ← bodyRun_skip env b' (by rw [hd]; exact ht), h]

/-- What the loop guarantees about its result. -/
theorem bodyRun_inv {env : BodyEnv} {n s : Nat} (b : Body) (hb : BodyInv env n s b) :
    (∀ b', bodyRun env b = .ok b' → BodyInv env n s b' ∧ (∃ bytes, b'.decoded = b.decoded ++ bytes) ∧
      b'.decoded.length = env.startPos + env.hdr.targetLen ∧ (∃ pre, b.inst = pre ++ b'.inst)) ∧
    (∀ b', bodyRun env b = .endOfData b' → BodyInv env n s b' ∧
      (∃ bytes, b'.decoded = b.decoded ++ bytes) ∧
      b'.decoded.length < env.startPos + env.hdr.targetLen ∧ (∃ pre, b.inst = pre ++ b'.inst) ∧
      bodyRun env b' = .endOfData b' ∧
      (b'.pending = none → skipNoops env.table b'.inst = [] → b'.inst = [])) ∧
    (∀ f, bodyRun env b = .fault f → f = .nearOverflow ∨ (f = .cacheOob ∧ n = 254)) := by
  induction b using bodyRun_induct env with | h b ih
  have hstart := hb.win.start
  have hroom := hb.win.room
  have htbd := targetBytesDecoded_eq hstart
  have hrun := bodyRun_eq env b
  by_cases ht : Level.targetBytesDecoded env.startPos b.decoded < env.hdr.targetLen
  · rw [if_pos ht] at hrun
    rw [htbd] at ht
    cases hg : getNextInstruction env.table b.pending b.inst with
    | error => simp [hrun, hg]
    | endOfData r p =>
      simp only [hg] at hrun
      rw [hrun]
      refine ⟨by simp, ?_, by simp⟩
      intro b' h'
      simp only [BodyResult.endOfData.injEq] at h'
      subst h'
      refine ⟨⟨hb.win, hb.cache⟩, ⟨[], by simp⟩, by simp only; omega, ?_, ?_, ?_⟩
      · unfold getNextInstruction at hg
        split at hg
        · simp only [NextInstruction.endOfData.injEq] at hg
          obtain ⟨rfl, rfl⟩ := hg
          exact ⟨b.inst, by simp⟩
        · split at hg
          · split at hg <;> simp only [NextInstruction.endOfData.injEq, reduceCtorEq] at hg
            obtain ⟨rfl, rfl⟩ := hg
            exact ⟨[], by simp⟩
          · simp at hg
      · have : getNextInstruction env.table p r = .endOfData r p := by
          rw [getNextInstruction] at hg
          cases hx : fetchHalf env.table b.inst b.pending with
          | none =>
            simp only [hx, NextInstruction.endOfData.injEq] at hg
            obtain ⟨rfl, rfl⟩ := hg
            simp [getNextInstruction, fetchHalf]
          | some x =>
            obtain ⟨hh, p', s'⟩ := x
            simp only [hx] at hg
            split at hg
            · rename_i h0
              cases hp : parseVarint32 s' with
              | ok v r' => simp [hp] at hg
              | error => simp [hp] at hg
              | endOfData =>
                simp only [hp, NextInstruction.endOfData.injEq] at hg
                obtain ⟨rfl, rfl⟩ := hg
                simp [getNextInstruction, hx, h0, hp]
            · simp at hg
        rw [bodyRun_eq]
        simp only [this]
        rw [if_pos (by rw [htbd]; exact ht)]
      · intro hp hs
        simp only at hp hs
        subst hp
        unfold getNextInstruction at hg
        cases hx : fetchHalf env.table b.inst b.pending with
        | none =>
          simp only [hx, NextInstruction.endOfData.injEq] at hg
          simp [hg.1]
        | some x =>
          obtain ⟨hh, p', s'⟩ := x
          simp only [hx] at hg
          split at hg
          · cases hp : parseVarint32 s' with
            | ok v r' => simp [hp] at hg
            | error => simp [hp] at hg
            | endOfData =>
              simp only [hp, NextInstruction.endOfData.injEq] at hg
              obtain ⟨rfl, hpn⟩ := hg
              have := fetchHalf_none.2 ⟨hpn, hs⟩
              rw [hx] at this
              simp at this
          · simp at hg
    | inst ty sz m r p =>
      simp only [hg] at hrun
      by_cases hsz : sz > env.hdr.targetLen ∨
          sz + Level.targetBytesDecoded env.startPos b.decoded > env.hdr.targetLen
      · rw [if_pos hsz] at hrun
        simp [hrun]
      · rw [if_neg hsz, ] at hrun
        rw [htbd] at hsz
        have hinv := execute_inv hb.win hb.cache (ty := ty) (sz := sz) (m := m) (r := r) (by omega)
        cases he : execute env b ty sz m r with
        | error => simp [hrun, he]
        | fault f =>
          simp only [he] at hrun
          rw [hrun]
          refine ⟨by simp, by simp, ?_⟩
          intro f' hf
          simp only [BodyResult.fault.injEq] at hf
          subst hf
          exact hinv.2 _ he
        | endOfData =>
          simp only [he] at hrun
          rw [hrun]
          refine ⟨by simp, ?_, by simp⟩
          intro b' h'
          simp only [BodyResult.endOfData.injEq] at h'
          subst h'
          refine ⟨hb, ⟨[], by simp⟩, by omega, ⟨[], rfl⟩, hrun, ?_⟩
          intro hp hs
          have := fetchHalf_none.2 ⟨hp, hs⟩
          simp [getNextInstruction, this] at hg
        | ok rest c d =>
          simp only [he] at hrun
          rw [hrun]
          obtain ⟨hc, bytes, hd, hlen⟩ := hinv.1 _ _ _ he
          obtain ⟨e1, e2⟩ := afterExec_cache env b ty r p rest c d
          obtain ⟨⟨pre1, e3⟩, _⟩ := afterExec_inst (p := p) he
          obtain ⟨⟨pre2, e4⟩, _⟩ := getNext_measure hg
          have hb' : BodyInv env n s (b.afterExec env ty r p rest c d) := by
            refine ⟨?_, ?_⟩
            · rw [e2, hd]
              exact hb.win.append _ (by omega)
            · rw [e1]; exact hc
          obtain ⟨i1, i2, i3⟩ := ih _ _ _ _ _ _ _ _ hg he hb'
          refine ⟨?_, ?_, i3⟩
          · intro b' h'
            obtain ⟨j1, ⟨by1, j2⟩, j3, ⟨pre3, j4⟩⟩ := i1 b' h'
            refine ⟨j1, ⟨bytes ++ by1, by rw [j2, e2, hd]; simp⟩, j3, ⟨pre2 ++ (pre1 ++ pre3), ?_⟩⟩
            rw [e4, e3, j4]; simp
          · intro b' h'
            obtain ⟨j1, ⟨by1, j2⟩, j3, ⟨pre3, j4⟩, j5, j6⟩ := i2 b' h'
            refine ⟨j1, ⟨bytes ++ by1, by rw [j2, e2, hd]; simp⟩, j3,
              ⟨pre2 ++ (pre1 ++ pre3), ?_⟩, j5, j6⟩
            rw [e4, e3, j4]; simp
  · rw [if_neg ht] at hrun
    rw [htbd] at ht
    rw [hrun]
    refine ⟨?_, by simp, by simp⟩
    intro b' h'
    simp only [BodyResult.ok.injEq] at h'
    subst h'
    exact ⟨hb, ⟨[], by simp⟩, by omega, ⟨[], rfl⟩⟩

/-- The state with more bytes in the instruction section. -/
def Body.extend (u : Bytes) (b : Body) : Body := { b with inst := b.inst ++ u }

theorem afterExec_extend {env : BodyEnv} (hi : env.hdr.interleaved = true) (b : Body) (ty : UInt8)
    (s : Bytes) (p : Option UInt8) (r : Bytes) (c : AddrCache) (d u : Bytes) :
    (b.extend u).afterExec env ty (s ++ u) p (r ++ u) c d
      = (b.afterExec env ty s p r c d).extend u := by
  simp [Body.afterExec, hi, Body.extend]

/-- Interleaved sections: an answer stays the same when more bytes are available, and a suspended
loop continues where it stopped. -/
theorem bodyRun_extend {env : BodyEnv} (hi : env.hdr.interleaved = true) (u : Bytes) (b : Body) :
    (∀ b', bodyRun env b = .ok b' → bodyRun env (b.extend u) = .ok (b'.extend u)) ∧
    (bodyRun env b = .error → bodyRun env (b.extend u) = .error) ∧
    (∀ f, bodyRun env b = .fault f → bodyRun env (b.extend u) = .fault f) ∧
    (∀ b', bodyRun env b = .endOfData b' →
      (bodyRun env (b.extend u)).skip env.table = (bodyRun env (b'.extend u)).skip env.table) := by
  induction b using bodyRun_induct env with | h b ih
  have hrun := bodyRun_eq env b
  have hrun' := bodyRun_eq env (b.extend u)
  by_cases ht : Level.targetBytesDecoded env.startPos b.decoded < env.hdr.targetLen
  · have ht' : Level.targetBytesDecoded env.startPos (b.extend u).decoded < env.hdr.targetLen := ht
    rw [if_pos ht] at hrun
    rw [if_pos ht'] at hrun'
    have hext : (∀ r q, getNextInstruction env.table b.pending b.inst ≠ .endOfData r q) →
        getNextInstruction env.table (b.extend u).pending (b.extend u).inst
          = (getNextInstruction env.table b.pending b.inst).extend u :=
      fun h => getNext_extend h u
    cases hg : getNextInstruction env.table b.pending b.inst with
    | error =>
      rw [hext (by simp [hg]), hg] at hrun'
      simp only [hg] at hrun
      simp only [NextInstruction.extend] at hrun'
      simp [hrun, hrun']
    | endOfData r p =>
      simp only [hg] at hrun
      rw [hrun]
      refine ⟨by simp, by simp, by simp, ?_⟩
      intro b' h'
      simp only [BodyResult.endOfData.injEq] at h'
      subst h'
      apply bodyRun_congr _ ht'
      unfold getNextInstruction at hg
      cases hx : fetchHalf env.table b.inst b.pending with
      | none =>
        simp only [hx, NextInstruction.endOfData.injEq] at hg
        obtain ⟨rfl, rfl⟩ := hg
        obtain ⟨h1, h2⟩ := fetchHalf_none.1 hx
        simp [Body.extend, Body.skip, h1, skipNoops_append, h2]
      | some x =>
        obtain ⟨hh, p', s'⟩ := x
        simp only [hx] at hg
        split at hg
        · cases hp : parseVarint32 s' with
          | ok v r' => simp [hp] at hg
          | error => simp [hp] at hg
          | endOfData =>
            simp only [hp, NextInstruction.endOfData.injEq] at hg
            obtain ⟨rfl, rfl⟩ := hg
            rfl
        · simp at hg
    | inst ty sz m r p =>
      rw [hext (by simp [hg]), hg] at hrun'
      simp only [hg] at hrun
      simp only [NextInstruction.extend] at hrun'
      by_cases hsz : sz > env.hdr.targetLen ∨
          sz + Level.targetBytesDecoded env.startPos b.decoded > env.hdr.targetLen
      · rw [if_pos hsz] at hrun
        rw [if_pos (by exact hsz)] at hrun'
        simp [hrun, hrun']
      · rw [if_neg hsz] at hrun
        rw [if_neg (by exact hsz)] at hrun'
        have hee : execute env b ty sz m r ≠ .endOfData →
            execute env (b.extend u) ty sz m (r ++ u) = (execute env b ty sz m r).extend u :=
          fun h => execute_extend hi rfl rfl h u
        cases he : execute env b ty sz m r with
        | error =>
          rw [hee (by simp [he]), he] at hrun'
          simp only [he] at hrun
          simp only [Exec.extend] at hrun'
          simp [hrun, hrun']
        | fault f =>
          rw [hee (by simp [he]), he] at hrun'
          simp only [he] at hrun
          simp only [Exec.extend] at hrun'
          simp [hrun, hrun']
        | endOfData =>
          simp only [he] at hrun
          rw [hrun]
          refine ⟨by simp, by simp, by simp, ?_⟩
          intro b' h'
          simp only [BodyResult.endOfData.injEq] at h'
          subst h'
          rfl
        | ok rest c d =>
          rw [hee (by simp [he]), he] at hrun'
          simp only [he] at hrun
          simp only [Exec.extend, afterExec_extend hi] at hrun'
          rw [hrun, hrun']
          exact ih _ _ _ _ _ _ _ _ hg he
  · have ht' : ¬ Level.targetBytesDecoded env.startPos (b.extend u).decoded < env.hdr.targetLen := ht
    rw [if_neg ht] at hrun
    rw [if_neg ht'] at hrun'
    rw [hrun, hrun']
    refine ⟨?_, by simp, by simp, by simp⟩
    intro b' h'
    simp only [BodyResult.ok.injEq] at h'
    rw [h']

end Vcd
