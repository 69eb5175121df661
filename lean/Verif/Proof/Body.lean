import Verif.Proof.Exec
import Verif.Proof.Parsed
import Verif.Proof.AddrCache

/-!
# The loop of `DecodeBody`: termination, absence of faults, behaviour when more input arrives
-/

namespace Vcd
open Spec

/-! ### Addresses -/

/-- The same result with more bytes left over. -/
def AddrCache.DecodeResult.extend (t : Bytes) : AddrCache.DecodeResult → AddrCache.DecodeResult
  | .ok a r c => .ok a (r ++ t) c
  | r => r

theorem commitDecoded_extend (c : AddrCache) (here d : Int) (r t : Bytes) :
    c.commitDecoded here d (r ++ t) = (c.commitDecoded here d r).extend t := by
  simp only [AddrCache.commitDecoded]
  split
  · rfl
  split
  · rfl
  cases c.update d.toNat <;> rfl

theorem commitDecoded_ne_eod (c : AddrCache) (here d : Int) (r : Bytes) :
    c.commitDecoded here d r ≠ .endOfData := by
  simp only [AddrCache.commitDecoded]
  split
  · simp
  split
  · simp
  cases c.update d.toNat <;> simp

theorem decodeAddress_extend (c : AddrCache) (here : Int) (mode : Nat) (s t : Bytes)
    (h : c.decodeAddress here mode s ≠ .endOfData) :
    c.decodeAddress here mode (s ++ t) = (c.decodeAddress here mode s).extend t := by
  unfold AddrCache.decodeAddress at h ⊢
  split
  · rfl
  rename_i hh
  rw [if_neg hh] at h
  cases s with
  | nil => simp at h
  | cons b bs =>
    simp only [List.cons_append] at h ⊢
    by_cases h1 : c.isSameMode mode = true
    · rw [if_pos h1, if_pos h1]
      split
      · rfl
      · exact commitDecoded_extend ..
    · rw [if_neg h1] at h ⊢
      rw [if_neg h1]
      simp only [parseVarint32] at h ⊢
      cases hp : parseVarint maxVal32 (b :: bs) with
      | endOfData => simp [hp] at h
      | error =>
        have := parseVarint_error_append (more := t) hp
        rw [List.cons_append] at this
        simp only [this, AddrCache.DecodeResult.extend]
      | ok enc rest =>
        have := parseVarint_ok_append (more := t) hp
        rw [List.cons_append] at this
        simp only [this, commitDecoded_extend]
        split
        · rfl
        split
        · rfl
        split
        · split
          · rfl
          split <;> rfl
        · rfl

theorem decodeAddress_rest {c : AddrCache} {here : Int} {mode : Nat} {s : Bytes} {a : Nat}
    {r : Bytes} {c' : AddrCache} (h : c.decodeAddress here mode s = .ok a r c') :
    ∃ pre, s = pre ++ r ∧ pre ≠ [] := by
  have commit : ∀ d r', c.commitDecoded here d r' = .ok a r c' → r' = r := by
    intro d r' h
    simp only [AddrCache.commitDecoded] at h
    split at h
    · simp at h
    split at h
    · simp at h
    cases hu : c.update d.toNat <;> simp [hu] at h
    exact h.2.1
  unfold AddrCache.decodeAddress at h
  split at h
  · simp at h
  cases s with
  | nil => simp at h
  | cons b bs =>
    simp only at h
    split at h
    · split at h
      · simp at h
      · exact ⟨[b], by simp [commit _ _ h], by simp⟩
    · rw [parseVarint32] at h
      cases hp : parseVarint maxVal32 (b :: bs) with
      | endOfData => simp [hp] at h
      | error => simp [hp] at h
      | ok enc rest =>
        obtain ⟨pre, h1, h2, _⟩ := (parseVarint_ok_iff maxVal32 (by decide) _ _ _).1 hp
        have hr : rest = r := by
          simp only [hp] at h
          split at h
          · exact commit _ _ h
          split at h
          · exact commit _ _ h
          split at h
          · split at h
            · simp at h
            split at h
            · simp at h
            · exact commit _ _ h
          · simp at h
        subst hr
        refine ⟨pre, h1, ?_⟩
        obtain ⟨fr, la, rfl, _⟩ := h2
        simp

/-- The address cache between `Init` calls: some history of addresses. -/
def CacheOk (c : AddrCache) (n s : Nat) : Prop :=
  n + s ≤ 254 ∧ ∃ hist, c = AddrCache.ofHist n s hist

/-- The faults that decoding can end in: overflow of a NEAR address, and access outside the cache
when a delta file asks for 254 NEAR slots. -/
def OnlyFault (f : Fault) : Prop := f = .nearOverflow ∨ f = .cacheOob

theorem decodeAddress_cases {c : AddrCache} {n s : Nat} (hc : CacheOk c n s) {here : Int}
    {mode : Nat} {stream : Bytes} :
    (∀ a r c', c.decodeAddress here mode stream = .ok a r c' →
      (a : Int) < here ∧ CacheOk c' n s) ∧
    (∀ f, c.decodeAddress here mode stream = .fault f →
      f = .nearOverflow ∨ (f = .cacheOob ∧ n = 254)) := by
  obtain ⟨hns, hist, rfl⟩ := hc
  have commit : ∀ (d : Int) (r : Bytes),
      (∀ a r' c', (AddrCache.ofHist n s hist).commitDecoded here d r = .ok a r' c' →
        (a : Int) < here ∧ CacheOk c' n s) ∧
      (∀ f, (AddrCache.ofHist n s hist).commitDecoded here d r ≠ .fault f) := by
    intro d r
    simp only [AddrCache.commitDecoded, AddrCache.update_ofHist]
    split
    · simp
    split
    · simp
    · refine ⟨?_, by simp⟩
      intro a r' c' h
      simp only [AddrCache.DecodeResult.ok.injEq] at h
      obtain ⟨rfl, rfl, rfl⟩ := h
      exact ⟨by omega, hns, _, rfl⟩
  constructor
  · intro a r c' h
    unfold AddrCache.decodeAddress at h
    split at h
    · simp at h
    cases stream with
    | nil => simp at h
    | cons b bs =>
      simp only at h
      split at h
      · split at h
        · simp at h
        · exact (commit _ _).1 _ _ _ h
      · split at h
        · simp at h
        · simp at h
        · split at h
          · exact (commit _ _).1 _ _ _ h
          split at h
          · exact (commit _ _).1 _ _ _ h
          split at h
          · split at h
            · simp at h
            split at h
            · simp at h
            · exact (commit _ _).1 _ _ _ h
          · simp at h
  · intro f h
    by_cases hn : n ≤ 253
    · left
      exact (AddrCache.decodeAddress_fault hn hns h).1
    · unfold AddrCache.decodeAddress at h
      split at h
      · simp at h
      cases stream with
      | nil => simp at h
      | cons b bs =>
        simp only at h
        split at h
        · split at h
          · simp at h; exact Or.inr ⟨h.symm, by omega⟩
          · exact absurd h ((commit _ _).2 _)
        · split at h
          · simp at h
          · simp at h
          · split at h
            · exact absurd h ((commit _ _).2 _)
            split at h
            · exact absurd h ((commit _ _).2 _)
            split at h
            · split at h
              · simp at h; exact Or.inr ⟨h.symm, by omega⟩
              split at h
              · simp at h; exact Or.inl h.symm
              · exact absurd h ((commit _ _).2 _)
            · simp at h

/-! ### Instructions -/

/-- 1 if a second instruction is pending. -/
def pendingBit (p : Option UInt8) : Nat := if p.isSome then 1 else 0

theorem pendingBit_le (p : Option UInt8) : pendingBit p ≤ 1 := by
  unfold pendingBit; split <;> omega

theorem fetchHalf_extend {t : CodeTable} {s : Bytes} {p : Option UInt8} {h p' r}
    (hf : fetchHalf t s p = some (h, p', r)) (u : Bytes) :
    fetchHalf t (s ++ u) p = some (h, p', r ++ u) := by
  induction s generalizing p with
  | nil =>
    cases p with
    | none => simp [fetchHalf] at hf
    | some op =>
      rw [fetchHalf] at hf
      simp only [Option.some.injEq, Prod.mk.injEq] at hf
      obtain ⟨rfl, rfl, rfl⟩ := hf
      rw [fetchHalf]
  | cons op s ih =>
    cases p with
    | some op' =>
      rw [fetchHalf] at hf
      simp only [Option.some.injEq, Prod.mk.injEq] at hf
      obtain ⟨rfl, rfl, rfl⟩ := hf
      rw [fetchHalf]
    | none =>
      rw [List.cons_append]
      rw [fetchHalf] at hf ⊢
      by_cases h0 : (t.first op).inst = vcdNoop
      · rw [if_pos h0] at hf ⊢
        exact ih hf
      · rw [if_neg h0] at hf ⊢
        simp only [Option.some.injEq, Prod.mk.injEq] at hf ⊢
        obtain ⟨rfl, rfl, rfl⟩ := hf
        simp

theorem fetchHalf_measure {t : CodeTable} {s : Bytes} {p : Option UInt8} {h p' r}
    (hf : fetchHalf t s p = some (h, p', r)) :
    (∃ pre, s = pre ++ r) ∧ 2 * r.length + pendingBit p' < 2 * s.length + pendingBit p := by
  induction s generalizing p with
  | nil =>
    cases p with
    | none => simp [fetchHalf] at hf
    | some op =>
      rw [fetchHalf] at hf
      simp only [Option.some.injEq, Prod.mk.injEq] at hf
      obtain ⟨rfl, rfl, rfl⟩ := hf
      exact ⟨⟨[], rfl⟩, by simp [pendingBit]⟩
  | cons op s ih =>
    cases p with
    | some op' =>
      rw [fetchHalf] at hf
      simp only [Option.some.injEq, Prod.mk.injEq] at hf
      obtain ⟨rfl, rfl, rfl⟩ := hf
      exact ⟨⟨[], rfl⟩, by simp [pendingBit]⟩
    | none =>
      rw [fetchHalf] at hf
      by_cases h0 : (t.first op).inst = vcdNoop
      · rw [if_pos h0] at hf
        obtain ⟨⟨pre, h1⟩, h2⟩ := ih hf
        refine ⟨⟨op :: pre, by simp [h1]⟩, ?_⟩
        have : pendingBit (if (t.second op).inst ≠ vcdNoop then some op else none) ≤ 1 := pendingBit_le _
        simp only [List.length_cons]
        omega
      · rw [if_neg h0] at hf
        simp only [Option.some.injEq, Prod.mk.injEq] at hf
        obtain ⟨rfl, rfl, rfl⟩ := hf
        refine ⟨⟨[op], rfl⟩, ?_⟩
        have : pendingBit (if (t.second op).inst ≠ vcdNoop then some op else none) ≤ 1 := pendingBit_le _
        simp only [List.length_cons]
        omega

/-- The same instruction with more bytes left over. -/
def NextInstruction.extend (u : Bytes) : NextInstruction → NextInstruction
  | .inst a b c r p => .inst a b c (r ++ u) p
  | r => r

theorem getNext_extend {t : CodeTable} {p : Option UInt8} {s : Bytes}
    (h : ∀ r q, getNextInstruction t p s ≠ .endOfData r q) (u : Bytes) :
    getNextInstruction t p (s ++ u) = (getNextInstruction t p s).extend u := by
  unfold getNextInstruction at h ⊢
  cases hf : fetchHalf t s p with
  | none => simp [hf] at h
  | some x =>
    obtain ⟨hh, p', s'⟩ := x
    rw [fetchHalf_extend hf]
    simp only [hf] at h ⊢
    by_cases h0 : hh.size = 0
    · simp only [h0, if_true] at h ⊢
      rw [parseVarint32] at h ⊢
      rw [parseVarint32]
      cases hp : parseVarint maxVal32 s' with
      | endOfData => simp [hp] at h
      | error => rw [parseVarint_error_append hp]; rfl
      | ok v r => rw [parseVarint_ok_append hp]; rfl
    · simp only [h0, if_false]; rfl

theorem getNext_measure {t : CodeTable} {p : Option UInt8} {s : Bytes} {ty sz m r p'}
    (h : getNextInstruction t p s = .inst ty sz m r p') :
    (∃ pre, s = pre ++ r) ∧ 2 * r.length + pendingBit p' < 2 * s.length + pendingBit p := by
  unfold getNextInstruction at h
  cases hf : fetchHalf t s p with
  | none => simp [hf] at h
  | some x =>
    obtain ⟨hh, p0, s'⟩ := x
    obtain ⟨⟨pre, h1⟩, h2⟩ := fetchHalf_measure hf
    simp only [hf] at h
    split at h
    · rw [parseVarint32] at h
      cases hp : parseVarint maxVal32 s' with
      | endOfData => simp [hp] at h
      | error => simp [hp] at h
      | ok v r' =>
        obtain ⟨bs, h3, _⟩ := (parseVarint_ok_iff maxVal32 (by decide) _ _ _).1 hp
        simp only [hp, NextInstruction.inst.injEq] at h
        obtain ⟨rfl, rfl, rfl, rfl, rfl⟩ := h
        refine ⟨⟨pre ++ bs, by rw [h1, h3]; simp⟩, ?_⟩
        rw [h3, List.length_append] at h2
        omega
    · simp only [NextInstruction.inst.injEq] at h
      obtain ⟨rfl, rfl, rfl, rfl, rfl⟩ := h
      exact ⟨⟨pre, h1⟩, h2⟩

/-! ### Execution -/

/-- The same result with more bytes left over. -/
def Exec.extend (t : Bytes) : Exec → Exec
  | .ok r c d => .ok (r ++ t) c d
  | r => r

theorem ofAppend_extend (r t : Bytes) (c : AddrCache) (e : Except Fault Bytes) :
    Exec.ofAppend (r ++ t) c e = (Exec.ofAppend r c e).extend t := by
  cases e <;> rfl

theorem execute_extend {env : BodyEnv} {b b' : Body} {ty : UInt8} {sz : Nat} {m : UInt8} {s : Bytes}
    (hi : env.hdr.interleaved = true) (hc : b'.cache = b.cache) (hd : b'.decoded = b.decoded)
    (h : execute env b ty sz m s ≠ .endOfData) (u : Bytes) :
    execute env b' ty sz m (s ++ u) = (execute env b ty sz m s).extend u := by
  unfold execute at h ⊢
  simp only [hi, if_true, hc, hd] at h ⊢
  by_cases h1 : ty = vcdAdd
  · simp only [h1, if_true] at h ⊢
    unfold decodeAdd at h ⊢
    by_cases h2 : sz > s.length
    · simp [h2] at h
    · rw [if_neg h2, if_neg (by simp; omega), ← ofAppend_extend,
        List.drop_append_of_le_length (by omega), List.take_append_of_le_length (by omega)]
  rw [if_neg h1] at h ⊢
  rw [if_neg h1]
  by_cases h2 : ty = vcdRun
  · simp only [h2, if_true] at h ⊢
    cases s with
    | nil => simp [decodeRun] at h
    | cons x s => simp only [List.cons_append, decodeRun, ofAppend_extend]
  rw [if_neg h2] at h ⊢
  rw [if_neg h2]
  by_cases h3 : ty = vcdCopy
  · simp only [h3, if_true] at h ⊢
    unfold decodeCopy at h ⊢
    simp only at h ⊢
    have : b.cache.decodeAddress (toInt32 (env.hdr.srcLen + Level.targetBytesDecoded env.startPos b.decoded))
        m.toNat s ≠ .endOfData := by
      intro h'; simp [h'] at h
    rw [decodeAddress_extend _ _ _ _ _ this]
    cases b.cache.decodeAddress _ m.toNat s <;> simp only [AddrCache.DecodeResult.extend] <;>
      first | rfl | exact ofAppend_extend ..
  · simp only [h3, if_false]; rfl

theorem ofAppend_rest {r r' : Bytes} {c c' : AddrCache} {e : Except Fault Bytes} {d : Bytes}
    (h : Exec.ofAppend r c e = .ok r' c' d) : r = r' := by
  cases e <;> simp [Exec.ofAppend] at h
  exact h.1

theorem execute_rest {env : BodyEnv} {b : Body} {ty : UInt8} {sz : Nat} {m : UInt8} {s r : Bytes}
    {c : AddrCache} {d : Bytes} (h : execute env b ty sz m s = .ok r c d) :
    ∃ pre, (if env.hdr.interleaved then s else if ty = vcdCopy then b.addr else b.data)
      = pre ++ r := by
  unfold execute at h
  simp only at h
  by_cases h1 : ty = vcdAdd
  · have hne : ty ≠ vcdCopy := by rw [h1]; decide
    rw [if_neg hne]
    rw [if_pos h1] at h
    obtain ⟨st, hst⟩ : ∃ st, st = if env.hdr.interleaved = true then s else b.data := ⟨_, rfl⟩
    rw [← hst] at h ⊢
    unfold decodeAdd at h
    split at h
    · simp at h
    · have := ofAppend_rest h
      rw [← this]
      exact ⟨_, (List.take_append_drop sz _).symm⟩
  rw [if_neg h1] at h
  by_cases h2 : ty = vcdRun
  · have hne : ty ≠ vcdCopy := by rw [h2]; decide
    rw [if_neg hne]
    rw [if_pos h2] at h
    obtain ⟨st, hst⟩ : ∃ st, st = if env.hdr.interleaved = true then s else b.data := ⟨_, rfl⟩
    rw [← hst] at h ⊢
    unfold decodeRun at h
    split at h
    · simp at h
    · have := ofAppend_rest h
      rw [← this]
      exact ⟨[_], rfl⟩
  rw [if_neg h2] at h
  by_cases h3 : ty = vcdCopy
  · rw [if_pos h3] at h ⊢
    unfold decodeCopy at h
    simp only at h
    split at h <;> try simp at h
    rename_i h'
    obtain ⟨pre, h4, _⟩ := decodeAddress_rest h'
    have := ofAppend_rest h
    exact ⟨pre, by rw [h4, this]⟩
  · simp [h3] at h

/-- The outcome of one instruction in a well-formed state: what it appends, and which faults are
possible. -/
theorem execute_inv {env : BodyEnv} {b : Body} (hw : WinInv env b.decoded) {n s : Nat}
    (hc : CacheOk b.cache n s) {ty : UInt8} {sz : Nat} {m : UInt8} {r : Bytes}
    (hsz : sz + (b.decoded.length - env.startPos) ≤ env.hdr.targetLen) :
    (∀ rest c d, execute env b ty sz m r = .ok rest c d →
      CacheOk c n s ∧ ∃ bytes, d = b.decoded ++ bytes ∧ bytes.length = sz) ∧
    (∀ f, execute env b ty sz m r = .fault f → f = .nearOverflow ∨ (f = .cacheOob ∧ n = 254)) := by
  have hstart := hw.start
  have app : ∀ bytes : Bytes, bytes.length = sz →
      appendTarget env b.decoded bytes = .ok (b.decoded ++ bytes) := by
    intro bytes hb
    exact appendTarget_ok (by omega)
  unfold execute
  simp only
  by_cases h1 : ty = vcdAdd
  · rw [if_pos h1]
    obtain ⟨st, hst⟩ : ∃ st, st = if env.hdr.interleaved = true then r else b.data := ⟨_, rfl⟩
    rw [← hst]
    unfold decodeAdd
    split
    · simp
    · rw [app _ (by simp; omega)]
      refine ⟨?_, by simp [Exec.ofAppend]⟩
      intro rest c d h
      simp only [Exec.ofAppend, Exec.ok.injEq] at h
      obtain ⟨_, rfl, rfl⟩ := h
      exact ⟨hc, _, rfl, by simp; omega⟩
  rw [if_neg h1]
  by_cases h2 : ty = vcdRun
  · rw [if_pos h2]
    obtain ⟨st, hst⟩ : ∃ st, st = if env.hdr.interleaved = true then r else b.data := ⟨_, rfl⟩
    rw [← hst]
    unfold decodeRun
    split
    · simp
    · rw [app _ (by simp)]
      refine ⟨?_, by simp [Exec.ofAppend]⟩
      intro rest c d h
      simp only [Exec.ofAppend, Exec.ok.injEq] at h
      obtain ⟨_, rfl, rfl⟩ := h
      exact ⟨hc, _, rfl, by simp⟩
  rw [if_neg h2]
  by_cases h3 : ty = vcdCopy
  · rw [if_pos h3]
    unfold decodeCopy
    simp only [targetBytesDecoded_eq hstart]
    have hda := decodeAddress_cases hc
      (here := toInt32 (env.hdr.srcLen + (b.decoded.length - env.startPos))) (mode := m.toNat)
      (stream := if env.hdr.interleaved = true then r else b.addr)
    split
    · simp
    · simp
    · rename_i h'
      refine ⟨by simp, ?_⟩
      intro f hf
      simp only [Exec.fault.injEq] at hf
      subst hf
      exact hda.2 _ h'
    · rename_i a rest c' h'
      obtain ⟨ha, hc'⟩ := hda.1 _ _ _ h'
      have hb1 := hw.srcLe
      have hb2 := hw.tgtLe
      have hlt : a < env.hdr.srcLen + (b.decoded.length - env.startPos) := by
        by_cases hle : env.hdr.srcLen + (b.decoded.length - env.startPos) ≤ 2147483647
        · rw [toInt32_of_lt hle] at ha; omega
        · have := toInt32_neg (n := env.hdr.srcLen + (b.decoded.length - env.startPos))
            (by omega) (by have := hw.room; omega)
          omega
      rw [copyBytes_eq hw hlt hsz]
      refine ⟨?_, by simp [Exec.ofAppend]⟩
      intro rest c d h
      simp only [Exec.ofAppend, Exec.ok.injEq] at h
      obtain ⟨_, rfl, rfl⟩ := h
      exact ⟨hc', _, rfl, by simp⟩
  · simp [h3]

/-! ### The loop -/

/-- What the loop consumes: two for each instruction byte, one for a pending instruction. -/
def Body.measure (b : Body) : Nat := 2 * b.inst.length + pendingBit b.pending

theorem afterExec_inst {env : BodyEnv} {b : Body} {ty : UInt8} {sz : Nat} {m : UInt8} {s r : Bytes}
    {p : Option UInt8} {c : AddrCache} {d : Bytes} (h : execute env b ty sz m s = .ok r c d) :
    (∃ pre, s = pre ++ (b.afterExec env ty s p r c d).inst) ∧
    (b.afterExec env ty s p r c d).pending = p := by
  have := execute_rest h
  unfold Body.afterExec
  by_cases hi : env.hdr.interleaved = true
  · simp only [hi, if_true] at this ⊢
    exact ⟨this, trivial⟩
  · rw [if_neg hi]
    by_cases hc : ty = vcdCopy
    · rw [if_pos hc]; exact ⟨⟨[], rfl⟩, rfl⟩
    · rw [if_neg hc]; exact ⟨⟨[], rfl⟩, rfl⟩

theorem afterExec_measure {env : BodyEnv} {b : Body} {ty : UInt8} {sz : Nat} {m : UInt8}
    {s r : Bytes} {p : Option UInt8} {c : AddrCache} {d : Bytes}
    (hg : getNextInstruction env.table b.pending b.inst = .inst ty sz m s p)
    (h : execute env b ty sz m s = .ok r c d) :
    (b.afterExec env ty s p r c d).measure < b.measure := by
  obtain ⟨⟨pre, h1⟩, h2⟩ := afterExec_inst (p := p) h
  obtain ⟨_, h3⟩ := getNext_measure hg
  have := congrArg List.length h1
  rw [List.length_append] at this
  unfold Body.measure
  rw [h2]
  omega

theorem afterExec_cache (env : BodyEnv) (b : Body) (ty : UInt8) (s : Bytes) (p : Option UInt8)
    (r : Bytes) (c : AddrCache) (d : Bytes) :
    (b.afterExec env ty s p r c d).cache = c ∧ (b.afterExec env ty s p r c d).decoded = d := by
  unfold Body.afterExec
  split
  · exact ⟨rfl, rfl⟩
  split <;> exact ⟨rfl, rfl⟩

/-- The loop's bound does not matter as long as it is large enough. -/
theorem bodyLoop_fuel (env : BodyEnv) {f1 f2 : Nat} {b : Body} (h1 : b.measure < f1)
    (h2 : b.measure < f2) : bodyLoop env f1 b = bodyLoop env f2 b := by
  induction f1 generalizing f2 b with
  | zero => omega
  | succ f1 ih =>
    cases f2 with
    | zero => omega
    | succ f2 =>
      simp only [bodyLoop]
      split
      · cases hg : getNextInstruction env.table b.pending b.inst with
        | endOfData r p => rfl
        | error => rfl
        | inst ty sz m s p =>
          simp only
          split
          · rfl
          · cases he : execute env b ty sz m s with
            | endOfData => rfl
            | error => rfl
            | fault f => rfl
            | ok r c d =>
              simp only
              have := afterExec_measure hg he
              exact ih (by omega) (by omega)
      · rfl

/-- The loop with enough fuel. -/
def bodyRun (env : BodyEnv) (b : Body) : BodyResult := bodyLoop env (2 * b.inst.length + 2) b

theorem measure_lt (b : Body) : b.measure < 2 * b.inst.length + 2 := by
  unfold Body.measure pendingBit; split <;> omega

theorem bodyRun_eq (env : BodyEnv) (b : Body) :
    bodyRun env b =
      if Level.targetBytesDecoded env.startPos b.decoded < env.hdr.targetLen then
        match getNextInstruction env.table b.pending b.inst with
        | .endOfData rest pending => .endOfData { b with inst := rest, pending := pending }
        | .error => .error
        | .inst type size mode instRest pending =>
          if size > env.hdr.targetLen ∨
              size + Level.targetBytesDecoded env.startPos b.decoded > env.hdr.targetLen then .error
          else
            match execute env b type size mode instRest with
            | .endOfData => .endOfData b
            | .error => .error
            | .fault f => .fault f
            | .ok rest cache decoded =>
              bodyRun env (b.afterExec env type instRest pending rest cache decoded)
      else .ok b := by
  rw [bodyRun, bodyLoop]
  split
  · cases hg : getNextInstruction env.table b.pending b.inst with
    | endOfData r p => rfl
    | error => rfl
    | inst ty sz m s p =>
      simp only
      split
      · rfl
      · cases he : execute env b ty sz m s with
        | endOfData => rfl
        | error => rfl
        | fault f => rfl
        | ok r c d =>
          simp only
          have := afterExec_measure hg he
          have h1 := measure_lt b
          exact bodyLoop_fuel env (by omega) (measure_lt _)
  · rfl

/-- Induction along the loop. -/
theorem bodyRun_induct (env : BodyEnv) {P : Body → Prop}
    (h : ∀ b, (∀ ty sz m s p r c d, getNextInstruction env.table b.pending b.inst = .inst ty sz m s p →
      execute env b ty sz m s = .ok r c d → P (b.afterExec env ty s p r c d)) → P b) (b : Body) :
    P b := by
  have : ∀ n b, b.measure < n → P b := by
    intro n
    induction n with
    | zero => intro b hb; omega
    | succ n ih =>
      intro b hb
      refine h b fun ty sz m s p r c d h1 h2 => ih _ ?_
      have := afterExec_measure h1 h2
      omega
  exact this _ b (Nat.lt_succ_self _)

end Vcd
