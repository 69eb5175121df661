import Verif.Model.Debug
import Verif.Proof.Leftover
import Verif.Proof.Memory

/-!
# Which `VCD_DFATAL`s a debug build of the decoder can come to
-/

namespace Vcd
open Spec

/-! ### One window -/

/-- All halves of opcodes have one of the four types. -/
def TypesOk (t : CodeTable) : Prop :=
  ∀ op, (t.first op).inst.toNat ≤ 3 ∧ (t.second op).inst.toNat ≤ 3

/-- A pending second instruction is one. -/
def PendOk (t : CodeTable) (p : Option UInt8) : Prop := ∀ op, p = some op → (t.second op).inst ≠ vcdNoop

/-- The places in one window that the input can lead to. -/
def bodySites : List Site := [.negativeHere, .invalidMode]

/-- The places that the input can lead to. -/
def inputSites : List Site := [.nearSize, .sameSize, .cacheInit, .negativeHere, .invalidMode]

theorem or_some {a b : Option Site} {x : Site} (h : a.or b = some x) : a = some x ∨ (a = none ∧ b = some x) := by
  cases a with
  | none => exact Or.inr ⟨rfl, by simpa using h⟩
  | some y => exact Or.inl (by simpa using h)

theorem commitDecoded_lt {c c' : AddrCache} {here d : Int} {r r' : Bytes} {a : Nat}
    (h : c.commitDecoded here d r = .ok a r' c') : (a : Int) < here := by
  unfold AddrCache.commitDecoded at h
  split at h
  · simp at h
  split at h
  · simp at h
  split at h
  · simp at h
  · simp only [AddrCache.DecodeResult.ok.injEq] at h
    obtain ⟨rfl, _⟩ := h
    omega

theorem decodeAddress_lt {c c' : AddrCache} {here : Int} {mode : Nat} {s r : Bytes} {a : Nat}
    (h : c.decodeAddress here mode s = .ok a r c') : (a : Int) < here := by
  unfold AddrCache.decodeAddress at h
  split at h
  · simp at h
  cases s with
  | nil => simp at h
  | cons b bs =>
    simp only at h
    split at h
    · split at h
      · simp at h
      · exact commitDecoded_lt h
    · split at h
      · simp at h
      · simp at h
      · split at h
        · exact commitDecoded_lt h
        split at h
        · exact commitDecoded_lt h
        split at h
        · split at h
          · simp at h
          split at h
          · simp at h
          · exact commitDecoded_lt h
        · simp at h

theorem decodeAddress_site {c : AddrCache} {here : Int} {mode : Nat} {s : Bytes} {x : Site}
    (h : c.decodeAddressSite here mode s = some x) :
    c.decodeAddress here mode s = .error ∧
      (x = .negativeHere ∧ here < 0 ∨ x = .invalidMode ∧ c.isSameMode mode = false ∧ mode ≠ 0 ∧ mode ≠ 1 ∧ c.isNearMode mode = false) := by
  unfold AddrCache.decodeAddressSite at h
  unfold AddrCache.decodeAddress
  by_cases hh : here < 0
  · rw [if_pos hh] at h ⊢
    simp only [Option.some.injEq] at h
    exact ⟨rfl, Or.inl ⟨h.symm, hh⟩⟩
  rw [if_neg hh] at h ⊢
  cases s with
  | nil => simp at h
  | cons b bs =>
    simp only at h ⊢
    by_cases hs : c.isSameMode mode = true
    · rw [if_pos hs] at h; simp at h
    rw [if_neg hs] at h ⊢
    cases hp : parseVarint32 (b :: bs) with
    | error => simp [hp] at h
    | endOfData => simp [hp] at h
    | ok enc rest =>
      simp only [hp] at h ⊢
      split at h
      · simp at h
      · rename_i hm
        simp only [not_or] at hm
        simp only [Option.some.injEq] at h
        rw [if_neg hm.1, if_neg hm.2.1, if_neg hm.2.2]
        exact ⟨rfl, Or.inr ⟨h.symm, by simpa using hs, hm.1, hm.2.1, by simpa using hm.2.2⟩⟩

/-- What an executed COPY comes to. -/
theorem execute_site {env : BodyEnv} {b : Body} {ty m : UInt8} {sz : Nat} {r : Bytes} {x : Site}
    (ht : ty.toNat ≤ 3) (h0 : ty ≠ vcdNoop) (h : executeSite env b ty m r = some x) :
    execute env b ty sz m r = .error ∧ ty = vcdCopy ∧
      (x = .negativeHere ∧ toInt32 (env.hdr.srcLen + Level.targetBytesDecoded env.startPos b.decoded) < 0 ∨
       x = .invalidMode ∧ b.cache.isSameMode m.toNat = false ∧ m.toNat ≠ 0 ∧ m.toNat ≠ 1 ∧ b.cache.isNearMode m.toNat = false) := by
  unfold executeSite at h
  split at h
  · simp at h
  split at h
  · simp at h
  rename_i h1 h2
  split at h
  · rename_i h3
    rcases or_some h with h | ⟨h, h'⟩
    · obtain ⟨k1, k2⟩ := decodeAddress_site h
      refine ⟨?_, h3, k2⟩
      unfold execute
      simp only
      rw [if_neg h1, if_neg h2, if_pos h3, decodeCopy, k1]
    · exfalso
      split at h'
      · rename_i ha
        have := decodeAddress_lt ha
        rw [if_neg (by omega)] at h'
        simp at h'
      · simp at h'
  · rename_i h3
    exfalso
    have e : ∀ y : UInt8, ty.toNat = y.toNat → ty = y := fun y => UInt8.toNat.inj
    have hne : ty.toNat ≠ 0 ∧ ty.toNat ≠ 1 ∧ ty.toNat ≠ 2 ∧ ty.toNat ≠ 3 :=
      ⟨fun k => h0 (e vcdNoop k), fun k => h1 (e vcdAdd k), fun k => h2 (e vcdRun k), fun k => h3 (e vcdCopy k)⟩
    omega

theorem fetchHalf_ok {t : CodeTable} {s s' : Bytes} {p p' : Option UInt8} {h : Half}
    (hp : PendOk t p) (hf : fetchHalf t s p = some (h, p', s')) :
    (∃ op, h = t.first op ∨ h = t.second op) ∧ h.inst ≠ vcdNoop ∧ PendOk t p' ∧ s'.length ≤ s.length ∧ (p.isSome → p' = none) := by
  induction s generalizing p with
  | nil =>
    cases p with
    | none => simp [fetchHalf] at hf
    | some op =>
      simp only [fetchHalf, Option.some.injEq, Prod.mk.injEq] at hf
      obtain ⟨rfl, rfl, rfl⟩ := hf
      exact ⟨⟨op, Or.inr rfl⟩, hp op rfl, fun _ h => by simp at h, Nat.le_refl _, fun _ => rfl⟩
  | cons b s ih =>
    cases p with
    | some op =>
      simp only [fetchHalf, Option.some.injEq, Prod.mk.injEq] at hf
      obtain ⟨rfl, rfl, rfl⟩ := hf
      exact ⟨⟨op, Or.inr rfl⟩, hp op rfl, fun _ h => by simp at h, Nat.le_refl _, fun _ => rfl⟩
    | none =>
      rw [fetchHalf] at hf
      have hpo : PendOk t (if (t.second b).inst ≠ vcdNoop then some b else none) := by
        intro op ho
        split at ho
        · rename_i h
          simp only [Option.some.injEq] at ho
          rw [← ho]; exact h
        · simp at ho
      split at hf
      · obtain ⟨k1, k2, k3, k4, _⟩ := ih hpo hf
        exact ⟨k1, k2, k3, by rw [List.length_cons]; omega, by simp⟩
      · rename_i hn
        simp only [Option.some.injEq, Prod.mk.injEq] at hf
        obtain ⟨rfl, rfl, rfl⟩ := hf
        exact ⟨⟨b, Or.inl rfl⟩, hn, hpo, by simp, by simp⟩

theorem unget_none {l n : Bytes} {lp p : Option UInt8} (hl : n.length ≤ l.length) (hp : lp.isSome → p = none) :
    ungetSite l lp n p = none := by
  unfold ungetSite
  rw [if_neg (by omega)]
  cases lp with
  | none => simp
  | some o => simp [hp rfl]

theorem parseVarint32_len {s r : Bytes} {v : Nat} (h : parseVarint32 s = .ok v r) : r.length ≤ s.length := by
  obtain ⟨_, pre, _, hp⟩ := parseVarint_ok_suffix (m := int32Max) (by decide) h
  rw [hp, List.length_append]
  omega

/-- What `GetNextInstruction` finds. -/
theorem getNext_ok {t : CodeTable} (ht : TypesOk t) {s : Bytes} {p : Option UInt8} (hp : PendOk t p) :
    getNextInstructionSite t p s = none ∧
    (∀ ty sz m r p', getNextInstruction t p s = .inst ty sz m r p' → ty.toNat ≤ 3 ∧ ty ≠ vcdNoop ∧ PendOk t p' ∧
      r.length ≤ s.length ∧ (p.isSome → p' = none) ∧ ∃ op, (ty = (t.first op).inst ∧ m = (t.first op).mode) ∨
        (ty = (t.second op).inst ∧ m = (t.second op).mode)) ∧
    (∀ r p', getNextInstruction t p s = .endOfData r p' → PendOk t p' ∧ r.length ≤ s.length) := by
  unfold getNextInstructionSite getNextInstruction
  cases hf : fetchHalf t s p with
  | none =>
    refine ⟨rfl, by simp, ?_⟩
    intro r p' h
    simp only [NextInstruction.endOfData.injEq] at h
    rw [← h.2, ← h.1]
    exact ⟨fun _ h => by simp at h, Nat.zero_le _⟩
  | some q =>
    obtain ⟨h, p', s'⟩ := q
    obtain ⟨⟨op, k1⟩, k2, k3, k4, k5⟩ := fetchHalf_ok hp hf
    have hle : h.inst.toNat ≤ 3 := by
      rcases k1 with rfl | rfl
      · exact (ht op).1
      · exact (ht op).2
    have hex : ∃ op, (h.inst = (t.first op).inst ∧ h.mode = (t.first op).mode) ∨ (h.inst = (t.second op).inst ∧ h.mode = (t.second op).mode) := by
      rcases k1 with rfl | rfl
      · exact ⟨op, Or.inl ⟨rfl, rfl⟩⟩
      · exact ⟨op, Or.inr ⟨rfl, rfl⟩⟩
    simp only
    by_cases hz : h.size = 0
    · rw [if_pos hz, if_pos hz]
      cases hv : parseVarint32 s' with
      | error => simp
      | endOfData =>
        simp only
        refine ⟨unget_none k4 k5, by simp, ?_⟩
        intro r q he
        simp only [NextInstruction.endOfData.injEq] at he
        rw [← he.2, ← he.1]; exact ⟨hp, Nat.le_refl _⟩
      | ok v r =>
        simp only
        refine ⟨trivial, ?_, by simp⟩
        intro ty sz m r' q he
        simp only [NextInstruction.inst.injEq] at he
        obtain ⟨rfl, rfl, rfl, rfl, rfl⟩ := he
        exact ⟨hle, k2, k3, Nat.le_trans (parseVarint32_len hv) k4, k5, hex⟩
    · rw [if_neg hz, if_neg hz]
      refine ⟨rfl, ?_, by simp⟩
      intro ty sz m r' q he
      simp only [NextInstruction.inst.injEq] at he
      obtain ⟨rfl, rfl, rfl, rfl, rfl⟩ := he
      exact ⟨hle, k2, k3, k4, k5, hex⟩

/-! ### Sizes of the address cache -/

/-- The two caches have the same sizes. -/
def SameSizes (c c' : AddrCache) : Prop := c'.nearSize = c.nearSize ∧ c'.sameSize = c.sameSize

theorem SameSizes.refl (c : AddrCache) : SameSizes c c := ⟨rfl, rfl⟩

theorem SameSizes.trans {a b c : AddrCache} (h : SameSizes a b) (h' : SameSizes b c) : SameSizes a c :=
  ⟨h'.1.trans h.1, h'.2.trans h.2⟩

theorem update_sizes {c c' : AddrCache} {a : Nat} (h : c.update a = some c') : SameSizes c c' := by
  unfold AddrCache.update at h
  simp only at h
  split at h
  · simp at h
  rename_i c1 h1
  have e : SameSizes c c1 := by
    split at h1
    · split at h1
      · simp only [Option.some.injEq] at h1
        rw [← h1]; exact ⟨rfl, rfl⟩
      · simp at h1
    · simp only [Option.some.injEq] at h1
      rw [← h1]; exact ⟨rfl, rfl⟩
  refine e.trans ?_
  split at h
  · split at h
    · simp only [Option.some.injEq] at h
      rw [← h]; exact ⟨rfl, rfl⟩
    · simp at h
  · simp only [Option.some.injEq] at h
    rw [← h]; exact ⟨rfl, rfl⟩

theorem commitDecoded_sizes {c c' : AddrCache} {here d : Int} {r r' : Bytes} {a : Nat}
    (h : c.commitDecoded here d r = .ok a r' c') : SameSizes c c' := by
  unfold AddrCache.commitDecoded at h
  split at h
  · simp at h
  split at h
  · simp at h
  split at h
  · simp at h
  · rename_i hu
    simp only [AddrCache.DecodeResult.ok.injEq] at h
    obtain ⟨_, _, rfl⟩ := h
    exact update_sizes hu

theorem decodeAddress_sizes {c c' : AddrCache} {here : Int} {mode : Nat} {s r : Bytes} {a : Nat}
    (h : c.decodeAddress here mode s = .ok a r c') : SameSizes c c' := by
  unfold AddrCache.decodeAddress at h
  split at h
  · simp at h
  cases s with
  | nil => simp at h
  | cons b bs =>
    simp only at h
    split at h
    · split at h
      · simp at h
      · exact commitDecoded_sizes h
    · split at h
      · simp at h
      · simp at h
      · split at h
        · exact commitDecoded_sizes h
        split at h
        · exact commitDecoded_sizes h
        split at h
        · split at h
          · simp at h
          split at h
          · simp at h
          · exact commitDecoded_sizes h
        · simp at h

theorem ofAppend_cache {r r' : Bytes} {c c' : AddrCache} {e : Except Fault Bytes} {d : Bytes}
    (h : Exec.ofAppend r c e = .ok r' c' d) : c' = c := by
  cases e with
  | error f => simp [Exec.ofAppend] at h
  | ok x => simp only [Exec.ofAppend, Exec.ok.injEq] at h; exact h.2.1.symm

theorem execute_sizes {env : BodyEnv} {b : Body} {ty m : UInt8} {sz : Nat} {s r d : Bytes} {c : AddrCache}
    (h : execute env b ty sz m s = .ok r c d) : SameSizes b.cache c := by
  unfold execute at h
  simp only at h
  generalize (if env.hdr.interleaved = true then s else b.data) = ds at h
  split at h
  · unfold decodeAdd at h
    split at h
    · simp at h
    · rw [ofAppend_cache h]; exact .refl _
  split at h
  · unfold decodeRun at h
    split at h
    · simp at h
    · rw [ofAppend_cache h]; exact .refl _
  split at h
  · unfold decodeCopy at h
    simp only at h
    split at h
    · simp at h
    · simp at h
    · simp at h
    · rename_i ha
      rw [ofAppend_cache h]; exact decodeAddress_sizes ha
  · simp at h

theorem afterExec_fields (env : BodyEnv) (b : Body) (ty : UInt8) (s : Bytes) (p : Option UInt8) (r : Bytes) (c : AddrCache)
    (d : Bytes) : (b.afterExec env ty s p r c d).cache = c ∧ (b.afterExec env ty s p r c d).pending = p := by
  unfold Body.afterExec
  split
  · exact ⟨rfl, rfl⟩
  split <;> exact ⟨rfl, rfl⟩

/-! ### The body of a window -/

/-- A mode that an address cache with these sizes does not have. -/
def BadMode (c : AddrCache) (m : UInt8) : Prop :=
  m.toNat ≠ 0 ∧ m.toNat ≠ 1 ∧ c.isNearMode m.toNat = false ∧ c.isSameMode m.toNat = false

/-- Some COPY of the code table has a mode that the address cache does not have. -/
def HasBadMode (t : CodeTable) (c : AddrCache) : Prop :=
  ∃ op, ((t.first op).inst = vcdCopy ∧ BadMode c (t.first op).mode) ∨
    ((t.second op).inst = vcdCopy ∧ BadMode c (t.second op).mode)

theorem SameSizes.badMode {c c' : AddrCache} (h : SameSizes c c') {m : UInt8} (hb : BadMode c' m) : BadMode c m := by
  obtain ⟨h1, h2, h3, h4⟩ := hb
  refine ⟨h1, h2, ?_, ?_⟩
  · unfold AddrCache.isNearMode AddrCache.firstSameMode at h3 ⊢
    rw [← h.1]; exact h3
  · unfold AddrCache.isSameMode AddrCache.lastMode AddrCache.firstSameMode at h4 ⊢
    rw [← h.1, ← h.2]; exact h4

theorem SameSizes.hasBadMode {c c' : AddrCache} (h : SameSizes c c') {t : CodeTable} (hb : HasBadMode t c') : HasBadMode t c := by
  obtain ⟨op, ⟨h1, h2⟩ | ⟨h1, h2⟩⟩ := hb
  · exact ⟨op, Or.inl ⟨h1, h.badMode h2⟩⟩
  · exact ⟨op, Or.inr ⟨h1, h.badMode h2⟩⟩

/-- Why a debug build ends while it decodes a window. -/
def BodyBad (t : CodeTable) (hdr : WinHeader) (c : AddrCache) (x : Site) : Prop :=
  (x = .negativeHere ∧ 2147483648 ≤ hdr.srcLen + hdr.targetLen) ∨ (x = .invalidMode ∧ HasBadMode t c)

theorem bodyLoop_site {env : BodyEnv} (ht : TypesOk env.table) {fuel : Nat} {b : Body} (hp : PendOk env.table b.pending) {x : Site}
    (h : bodyLoopSite env fuel b = some x) :
    bodyLoop env fuel b = .error ∧ BodyBad env.table env.hdr b.cache x := by
  induction fuel generalizing b with
  | zero => simp [bodyLoopSite] at h
  | succ fuel ih =>
    rw [bodyLoopSite] at h
    rw [bodyLoop]
    by_cases hlt : Level.targetBytesDecoded env.startPos b.decoded < env.hdr.targetLen
    · rw [if_pos hlt] at h ⊢
      obtain ⟨g1, g2, g3⟩ := getNext_ok ht (s := b.inst) hp
      rw [g1, Option.none_or] at h
      cases hg : getNextInstruction env.table b.pending b.inst with
      | error => simp [hg] at h
      | endOfData r p => simp [hg] at h
      | inst ty sz m r p =>
        obtain ⟨k1, k2, k3, k4, k5, op, k6⟩ := g2 _ _ _ _ _ hg
        simp only [hg] at h ⊢
        split at h
        · simp at h
        rename_i hs
        rw [if_neg hs]
        rcases or_some h with h | ⟨hn, h⟩
        · obtain ⟨e1, e2, e3⟩ := execute_site (sz := sz) k1 k2 h
          rw [e1]
          refine ⟨rfl, ?_⟩
          rcases e3 with ⟨rfl, e3⟩ | ⟨rfl, e3, e4, e5, e6⟩
          · left
            refine ⟨rfl, ?_⟩
            by_cases hl : env.hdr.srcLen + Level.targetBytesDecoded env.startPos b.decoded ≤ 2147483647
            · rw [toInt32_of_lt hl] at e3; omega
            · omega
          · right
            have hb : BadMode b.cache m := ⟨e4, e5, e6, e3⟩
            refine ⟨rfl, op, ?_⟩
            rcases k6 with ⟨q1, q2⟩ | ⟨q1, q2⟩
            · exact Or.inl ⟨q1 ▸ e2, q2 ▸ hb⟩
            · exact Or.inr ⟨q1 ▸ e2, q2 ▸ hb⟩
        · cases he : execute env b ty sz m r with
          | error => simp [he] at h
          | fault f => simp [he] at h
          | endOfData =>
            simp only [he] at h
            rw [unget_none k4 k5] at h
            simp at h
          | ok rest c d =>
            simp only [he] at h ⊢
            obtain ⟨f1, f2⟩ := afterExec_fields env b ty r p rest c d
            obtain ⟨i1, i2⟩ := ih (by rw [f2]; exact k3) h
            refine ⟨i1, ?_⟩
            rw [f1] at i2
            rcases i2 with i2 | ⟨i2, i3⟩
            · exact Or.inl i2
            · exact Or.inr ⟨i2, (execute_sizes he).hasBadMode i3⟩
    · rw [if_neg hlt] at h; simp at h

/-- What the loop leaves behind. -/
theorem bodyLoop_kept {env : BodyEnv} (ht : TypesOk env.table) {fuel : Nat} {b : Body} (hp : PendOk env.table b.pending) :
    (∀ b', bodyLoop env fuel b = .ok b' → SameSizes b.cache b'.cache ∧ b'.inst.length ≤ b.inst.length) ∧
    (∀ b', bodyLoop env fuel b = .endOfData b' → PendOk env.table b'.pending ∧ SameSizes b.cache b'.cache ∧
      b'.inst.length ≤ b.inst.length) := by
  induction fuel generalizing b with
  | zero => simp [bodyLoop]
  | succ fuel ih =>
    rw [bodyLoop]
    by_cases hlt : Level.targetBytesDecoded env.startPos b.decoded < env.hdr.targetLen
    · rw [if_pos hlt]
      obtain ⟨g1, g2, g3⟩ := getNext_ok ht (s := b.inst) hp
      cases hg : getNextInstruction env.table b.pending b.inst with
      | error => simp
      | endOfData r p =>
        refine ⟨by simp, ?_⟩
        intro b' h
        simp only [BodyResult.endOfData.injEq] at h
        rw [← h]
        exact ⟨(g3 _ _ hg).1, .refl _, (g3 _ _ hg).2⟩
      | inst ty sz m r p =>
        obtain ⟨k1, k2, k3, k4, k5, op, k6⟩ := g2 _ _ _ _ _ hg
        simp only
        split
        · simp
        cases he : execute env b ty sz m r with
        | error => simp
        | fault f => simp
        | endOfData =>
          refine ⟨by simp, ?_⟩
          intro b' h
          simp only [BodyResult.endOfData.injEq] at h
          rw [← h]
          exact ⟨hp, .refl _, Nat.le_refl _⟩
        | ok rest c d =>
          simp only
          obtain ⟨f1, f2⟩ := afterExec_fields env b ty r p rest c d
          obtain ⟨⟨pre, f3⟩, _⟩ := afterExec_inst (p := p) he
          have hl : (b.afterExec env ty r p rest c d).inst.length ≤ b.inst.length := by
            have := congrArg List.length f3
            rw [List.length_append] at this
            omega
          obtain ⟨i1, i2⟩ := ih (b := b.afterExec env ty r p rest c d) (by rw [f2]; exact k3)
          rw [f1] at i1 i2
          exact ⟨fun b' h => ⟨(execute_sizes he).trans (i1 b' h).1, Nat.le_trans (i1 b' h).2 hl⟩,
            fun b' h => ⟨(i2 b' h).1, (execute_sizes he).trans (i2 b' h).2.1, Nat.le_trans (i2 b' h).2.2 hl⟩⟩
    · rw [if_neg hlt]
      refine ⟨?_, by simp⟩
      intro b' h
      simp only [BodyResult.ok.injEq] at h
      rw [← h]; exact ⟨.refl _, Nat.le_refl _⟩

/-! ### Windows -/

/-- The code table of a level and the pending second instruction of its open window. -/
structure Typed (L : Level) : Prop where
  types : TypesOk L.table
  pend : ∀ w, L.win = some w → PendOk L.table w.pending

theorem Typed.congr {L L' : Level} (h : Typed L) (ht : L'.table = L.table) (hw : L'.win = L.win) : Typed L' :=
  ⟨ht ▸ h.types, fun w hx => ht ▸ h.pend w (hw ▸ hx)⟩

theorem Typed.closed {L : Level} (ht : TypesOk L.table) (hw : L.win = none) : Typed L :=
  ⟨ht, fun w h => by rw [hw] at h; simp at h⟩

theorem windowBody_site {L : Level} {w : OpenWindow} {c : AddrCache} {s : Bytes} (ht : TypesOk L.table)
    (hp : PendOk L.table w.pending)
    (hl : w.hdr.interleaved = false → w.hdr.dataLen + w.hdr.instLen + w.hdr.addrLen ≤ s.length) {x : Site}
    (h : decodeWindowBodySite L w c s = some x) :
    decodeWindowBody L w c s = .error ∧ BodyBad L.table w.hdr c x := by
  unfold decodeWindowBodySite at h
  dsimp only at h
  by_cases hi : w.hdr.interleaved = true
  · rw [if_pos hi] at h
    rw [dwb_inter hi]
    change ((bodyLoopSite (L.env w.hdr) (2 * (interBody L w c s).inst.length + 2) (interBody L w c s)).or
      (match decodeBody (L.env w.hdr) (interBody L w c s) with
        | .ok b' => _ | .endOfData b' => _ | _ => _)) = _ at h
    rcases or_some h with h | ⟨hn, h⟩
    · obtain ⟨k1, k2⟩ := bodyLoop_site (env := L.env w.hdr) ht (b := interBody L w c s) hp h
      have : bodyRun (L.env w.hdr) (interBody L w c s) = .error := k1
      rw [this]
      exact ⟨rfl, k2⟩
    · exfalso
      obtain ⟨k1, k2⟩ := bodyLoop_kept (env := L.env w.hdr) ht (fuel := 2 * (interBody L w c s).inst.length + 2)
        (b := interBody L w c s) hp
      have hlen : (s.take w.expected).length ≤ s.length := by rw [List.length_take]; omega
      rw [decodeBody_eq] at h
      cases hr : bodyRun (L.env w.hdr) (interBody L w c s) with
      | error => simp [hr] at h
      | fault f => simp [hr] at h
      | ok b' =>
        have hb : b'.inst.length ≤ (s.take w.expected).length := (k1 _ hr).2
        simp only [hr] at h
        by_cases he : bodyEndOk (L.env w.hdr) b' = true ∧ b'.inst = []
        · rw [if_pos he] at h
          simp only at h
          rw [if_neg (by omega)] at h
          simp at h
        · rw [if_neg he] at h
          simp at h
      | endOfData b' =>
        have hb : b'.inst.length ≤ (s.take w.expected).length := (k2 _ hr).2.2
        simp only [hr] at h
        rw [if_neg (by omega)] at h
        simp at h
  · have hi' : w.hdr.interleaved = false := by simpa using hi
    rw [if_neg hi] at h
    rw [dwb_std hi']
    change ((bodyLoopSite (L.env w.hdr) (2 * (stdBody L w c s).inst.length + 2) (stdBody L w c s)).or
      (match decodeBody (L.env w.hdr) (stdBody L w c s) with
        | .ok b' => _ | _ => _)) = _ at h
    rcases or_some h with h | ⟨hn, h⟩
    · obtain ⟨k1, k2⟩ := bodyLoop_site (env := L.env w.hdr) ht (b := stdBody L w c s) hp h
      have : bodyRun (L.env w.hdr) (stdBody L w c s) = .error := k1
      rw [this]
      exact ⟨rfl, k2⟩
    · exfalso
      have := hl hi'
      split at h
      · rw [if_neg (by omega)] at h
        simp at h
      · simp at h

/-- What a decoded window leaves behind. -/
theorem windowBody_kept {L : Level} {w : OpenWindow} {c : AddrCache} {s : Bytes} (ht : TypesOk L.table)
    (hp : PendOk L.table w.pending) :
    (∀ L' r, decodeWindowBody L w c s = .ok L' r → ∃ b', L' = L.closed b' ∧ SameSizes c b'.cache) ∧
    (∀ L' r, decodeWindowBody L w c s = .endOfData L' r → ∃ e b', L' = L.suspended w e b' ∧ PendOk L.table b'.pending ∧
      SameSizes c b'.cache) := by
  by_cases hi : w.hdr.interleaved = true
  · rw [dwb_inter hi]
    obtain ⟨k1, k2⟩ := bodyLoop_kept (env := L.env w.hdr) ht (fuel := 2 * (interBody L w c s).inst.length + 2)
      (b := interBody L w c s) hp
    cases hr : bodyRun (L.env w.hdr) (interBody L w c s) with
    | error => simp
    | fault f => simp
    | ok b' =>
      refine ⟨?_, ?_⟩
      · intro L' r h
        simp only at h
        split at h
        · simp only [WinResult.ok.injEq] at h
          exact ⟨b', h.1.symm, (k1 _ hr).1⟩
        · simp at h
      · intro L' r h
        simp only at h
        split at h <;> simp at h
    | endOfData b' =>
      refine ⟨?_, ?_⟩
      · intro L' r h
        simp only at h
        split at h <;> simp at h
      · intro L' r h
        simp only at h
        split at h
        · simp only [WinResult.endOfData.injEq] at h
          exact ⟨_, b', h.1.symm, (k2 _ hr).1, (k2 _ hr).2.1⟩
        · simp at h
  · have hi' : w.hdr.interleaved = false := by simpa using hi
    rw [dwb_std hi']
    obtain ⟨k1, k2⟩ := bodyLoop_kept (env := L.env w.hdr) ht (fuel := 2 * (stdBody L w c s).inst.length + 2)
      (b := stdBody L w c s) hp
    cases hr : bodyRun (L.env w.hdr) (stdBody L w c s) with
    | error => simp
    | fault f => simp
    | endOfData b' => simp
    | ok b' =>
      refine ⟨?_, ?_⟩
      · intro L' r h
        simp only at h
        split at h
        · simp only [WinResult.ok.injEq] at h
          exact ⟨b', h.1.symm, (k1 _ hr).1⟩
        · simp at h
      · intro L' r h
        simp only at h
        split at h <;> simp at h

theorem init_sizes {c c' : AddrCache} (h : c.init = some c') : SameSizes c c' := by
  unfold AddrCache.init at h
  split at h
  · simp at h
  · simp only [Option.some.injEq] at h
    rw [← h]; exact ⟨rfl, rfl⟩

theorem init_none {c : AddrCache} (h : c.init = none) : 254 < c.nearSize + c.sameSize := by
  unfold AddrCache.init at h
  split at h
  · assumption
  · simp at h

theorem PendOk.none (t : CodeTable) : PendOk t none := fun _ h => by simp at h

/-- Why a debug build ends in `DecodeWindow`. -/
def WinBad (L : Level) (s : Bytes) (x : Site) : Prop :=
  ∃ c, L.cache = some c ∧
    ((x = .cacheInit ∧ 254 < c.nearSize + c.sameSize) ∨
     ∃ hdr, BodyBad L.table hdr c x ∧
      ((L.win = none ∧ ∃ r, readHeader L s = .ok hdr r) ∨ ∃ w, L.win = some w ∧ w.hdr = hdr))

theorem decodeWindow_site {L : Level} (hL : LevelInv L) (hT : Typed L) (hc : L.cache ≠ none) {s : Bytes} {x : Site}
    (h : decodeWindowSite L s = some x) : decodeWindow L s = .error ∧ WinBad L s x := by
  cases hcc : L.cache with
  | none => exact absurd hcc hc
  | some c0 =>
  unfold decodeWindowSite at h
  cases hw : L.win with
  | none =>
    rw [decodeWindow_none hw]
    simp only [hw] at h
    cases hr : readHeader L s with
    | endOfData => simp [hr] at h
    | error => simp [hr] at h
    | ok hdr rest =>
      obtain ⟨⟨pre, hpre, _⟩, _, _, _, _, _, _, hstd, _⟩ := readHeader_ok hr
      have hlen := congrArg List.length hpre
      rw [List.length_append] at hlen
      simp only [hr, hcc, Option.bind_some] at h ⊢
      rw [if_neg (by omega)] at h
      cases hi : c0.init with
      | none =>
        simp only [hi, Option.some.injEq] at h
        exact ⟨rfl, c0, hcc, Or.inl ⟨h.symm, init_none hi⟩⟩
      | some c =>
        simp only [hi] at h ⊢
        obtain ⟨k1, k2⟩ := windowBody_site (L := L.opened hdr) (w := newWindow hdr) hT.types (.none _) hstd h
        refine ⟨k1, c0, hcc, Or.inr ⟨hdr, ?_, Or.inl ⟨hw, rest, hr⟩⟩⟩
        rcases k2 with k2 | ⟨k2, k3⟩
        · exact Or.inl k2
        · exact Or.inr ⟨k2, (init_sizes hi).hasBadMode k3⟩
  | some w =>
    obtain ⟨_, _, c, n, m, hc', ho⟩ := hL.opened w hw
    rw [decodeWindow_some hw ho.inter hc']
    simp only [hw, ho.inter, Bool.not_true, Bool.false_eq_true, if_false, hc'] at h
    obtain ⟨k1, k2⟩ := windowBody_site hT.types (hT.pend w hw) (fun hf => by rw [ho.inter] at hf; simp at hf) h
    exact ⟨k1, c, hc', Or.inr ⟨w.hdr, k2, Or.inr ⟨w, hw, rfl⟩⟩⟩

/-- What `DecodeWindow` keeps. -/
theorem decodeWindow_typed {L : Level} (hL : LevelInv L) (hT : Typed L) {s : Bytes} :
    (∀ L' r, decodeWindow L s = .ok L' r → Typed L' ∧ ∀ c, L.cache = some c → ∃ c', L'.cache = some c' ∧ SameSizes c c') ∧
    (∀ L' r, decodeWindow L s = .endOfData L' r →
      Typed L' ∧ ∀ c, L.cache = some c → ∃ c', L'.cache = some c' ∧ SameSizes c c') := by
  have hsame : Typed L ∧ ∀ c, L.cache = some c → ∃ c', L.cache = some c' ∧ SameSizes c c' :=
    ⟨hT, fun c hc => ⟨c, hc, .refl _⟩⟩
  cases hw : L.win with
  | none =>
    rw [decodeWindow_none hw]
    cases hr : readHeader L s with
    | endOfData =>
      refine ⟨by simp, ?_⟩
      intro L' r h
      simp only [WinResult.endOfData.injEq] at h
      rw [← h.1]; exact hsame
    | error => simp
    | ok hdr rest =>
      simp only
      cases hc : L.cache with
      | none => simp
      | some c0 =>
        simp only [Option.bind_some]
        cases hi : c0.init with
        | none => simp
        | some c =>
          simp only
          obtain ⟨k1, k2⟩ := windowBody_kept (L := L.opened hdr) (w := newWindow hdr) (c := c) (s := rest) hT.types (.none _)
          refine ⟨?_, ?_⟩
          · intro L' r h
            obtain ⟨b', rfl, hs⟩ := k1 _ _ h
            refine ⟨.closed hT.types rfl, fun c1 hc1 => ⟨b'.cache, rfl, ?_⟩⟩
            simp only [Option.some.injEq] at hc1
            rw [← hc1]
            exact (init_sizes hi).trans hs
          · intro L' r h
            obtain ⟨e, b', rfl, hp, hs⟩ := k2 _ _ h
            refine ⟨⟨hT.types, fun w hw => ?_⟩, fun c1 hc1 => ⟨b'.cache, rfl, ?_⟩⟩
            · simp only [Level.suspended, Option.some.injEq] at hw
              rw [← hw]; exact hp
            · simp only [Option.some.injEq] at hc1
              rw [← hc1]
              exact (init_sizes hi).trans hs
  | some w =>
    obtain ⟨_, _, c, n, m, hc', ho⟩ := hL.opened w hw
    rw [decodeWindow_some hw ho.inter hc']
    obtain ⟨k1, k2⟩ := windowBody_kept (L := L) (w := w) (c := c) (s := s) hT.types (hT.pend w hw)
    refine ⟨?_, ?_⟩
    · intro L' r h
      obtain ⟨b', rfl, hs⟩ := k1 _ _ h
      refine ⟨.closed hT.types rfl, fun c1 hc1 => ⟨b'.cache, rfl, ?_⟩⟩
      rw [hc'] at hc1
      simp only [Option.some.injEq] at hc1
      rw [← hc1]; exact hs
    · intro L' r h
      obtain ⟨e, b', rfl, hp, hs⟩ := k2 _ _ h
      refine ⟨⟨hT.types, fun w hw => ?_⟩, fun c1 hc1 => ⟨b'.cache, rfl, ?_⟩⟩
      · simp only [Level.suspended, Option.some.injEq] at hw
        rw [← hw]; exact hp
      · rw [hc'] at hc1
        simp only [Option.some.injEq] at hc1
        rw [← hc1]; exact hs

theorem next_typed {L : Level} (hT : Typed L) : Typed L.next.1 :=
  hT.congr (static_fields (next_static L)).table (next_fields L).2.2.1

/-! ### The loop over windows -/

/-- A property that `DecodeWindow` keeps. -/
structure WinStable (I : Level → Prop) : Prop where
  ok : ∀ {L s L' r}, LevelInv L → I L → decodeWindow L s = .ok L' r → I L'.next.1
  eod : ∀ {L s L' r}, LevelInv L → I L → decodeWindow L s = .endOfData L' r → I L'
  done : ∀ {L s L' r}, LevelInv L → I L → decodeWindow L s = .ok L' r → I L'
  ended : ∀ {L} (r : Bytes), I L → I (L.ended r)

theorem typed_stable : WinStable Typed where
  ok hL hT h := next_typed ((decodeWindow_typed hL hT).1 _ _ h).1
  eod hL hT h := ((decodeWindow_typed hL hT).2 _ _ h).1
  done hL hT h := ((decodeWindow_typed hL hT).1 _ _ h).1
  ended _ hT := hT.congr rfl rfl

/-- No more has been decoded than was planned. -/
def Level.InPlan (L : Level) : Prop := ∀ p, L.planned = some p → L.total ≤ p

theorem Level.InPlan.site {L : Level} (h : L.InPlan) : L.plannedSite = none := by
  unfold Level.plannedSite
  split
  · rfl
  · rename_i p hp
    have := h p hp
    rw [if_neg (by omega)]

theorem windowLoop_site {I : Level → Prop} (hI : WinStable I) {fuel : Nat} {L : Level} (hL : LevelInv L) (hi : I L)
    (hc : L.cache ≠ none) (hp : L.InPlan) {s : Bytes} {x : Site} (h : windowLoopSite fuel L s = some x)
    (herr : ∀ L s x, LevelInv L → I L → L.cache ≠ none → decodeWindowSite L s = some x → decodeWindow L s = .error) :
    (∃ o, windowLoop fuel L s [] = .error o) ∧
      ∃ L' s', LevelInv L' ∧ I L' ∧ L'.cache ≠ none ∧ decodeWindowSite L' s' = some x := by
  induction fuel generalizing L s with
  | zero => simp [windowLoopSite] at h
  | succ fuel ih =>
    rw [windowLoopSite] at h
    rw [windowLoop_succ]
    by_cases hs : s = []
    · rw [if_pos hs] at h; simp at h
    rw [if_neg hs] at h ⊢
    rcases or_some h with h | ⟨_, h⟩
    · rw [herr _ _ _ hL hi hc h]
      exact ⟨⟨[], rfl⟩, L, s, hL, hi, hc, h⟩
    · cases hd : decodeWindow L s with
      | fault f => simp [hd] at h
      | error => simp [hd] at h
      | endOfData L' r => simp [hd] at h
      | ok L' r =>
        simp only [hd] at h ⊢
        obtain ⟨i1, i2, _⟩ := decodeWindow_ok hL hd
        have hp' : L'.InPlan := fun p h' => i1.plan p ((static_fields i1.stat).planned ▸ h')
          (hp p ((static_fields i1.stat).planned ▸ h'))
        rw [hp'.site, Option.none_or] at h
        by_cases hr : L'.reachedPlanned = true
        · rw [if_pos hr] at h; simp at h
        rw [if_neg hr] at h ⊢
        have hn : windowLoopSite fuel L'.next.1 r = some x := by
          unfold Level.next
          by_cases ha : L'.allowTarget = true
          · simpa [ha] using h
          · simpa [ha] using h
        have hnc : L'.next.1.cache ≠ none := by
          rw [(next_fields L').2.1]
          cases hx : L.cache with
          | none => exact absurd hx hc
          | some c =>
            obtain ⟨c', h1, _⟩ := i1.near c hx
            rw [h1]; simp
        have hnp : L'.next.1.InPlan := by
          intro p hx
          rw [(next_fields L').1]
          exact hp' p ((static_fields (next_static L')).planned ▸ hx)
        obtain ⟨⟨o, k1⟩, k2⟩ := ih (i1.inv.next i2) (hI.ok hL hi hd) hnc hnp hn
        rw [k1]
        exact ⟨⟨_, rfl⟩, k2⟩

theorem winRun_stable {I : Level → Prop} (hI : WinStable I) {L : Level} (hL : LevelInv L) (hi : I L) {s r o : Bytes} {L' : Level}
    (h : winRun L s = .done L' r o) : I L' := by
  induction hn : s.length using Nat.strongRecOn generalizing L s o with
  | _ n ih =>
    rw [winRun_eq hL] at h
    by_cases hs : s = []
    · rw [if_pos hs] at h
      simp only [WindowsResult.done.injEq] at h
      rw [← h.1]; exact hi
    rw [if_neg hs] at h
    cases hd : decodeWindow L s with
    | fault f => simp [hd] at h
    | error => simp [hd] at h
    | endOfData L1 r1 =>
      simp only [hd, WindowsResult.done.injEq] at h
      rw [← h.1]; exact hI.eod hL hi hd
    | ok L1 r1 =>
      simp only [hd] at h
      obtain ⟨i1, i2, ⟨pre, hpre, hne⟩, _⟩ := decodeWindow_ok hL hd
      split at h
      · simp only [WindowsResult.done.injEq] at h
        rw [← h.1]; exact hI.done hL hi hd
      · have hlt : r1.length < n := by
          have := List.length_pos_iff.2 (hne hs)
          rw [← hn, hpre, List.length_append]
          omega
        cases hw : winRun L1.next.1 r1 with
        | fault f => simp [hw, WindowsResult.prepend] at h
        | error o => simp [hw, WindowsResult.prepend] at h
        | done L2 r2 o2 =>
          simp only [hw, WindowsResult.prepend, WindowsResult.done.injEq] at h
          obtain ⟨rfl, rfl, rfl⟩ := h
          exact ih _ hlt (i1.inv.next i2) (hI.ok hL hi hd) hw rfl

theorem windows_stable {I : Level → Prop} (hI : WinStable I) {L : Level} (hL : LevelInv L) (hi : I L) {s o : Bytes} {L' : Level}
    {ns : List Level} (h : decodeChunkWindows L s = .ok L' ns o) : I L' := by
  rw [decodeChunkWindows_eq] at h
  cases hw : winRun L s with
  | fault f => simp [hw] at h
  | error o => simp [hw] at h
  | done L1 r1 o1 =>
    simp only [hw, ChunkResult.ok.injEq] at h
    rw [← h.1]
    exact hI.ended _ (winRun_stable hI hL hi hw)

theorem windows_site {I : Level → Prop} (hI : WinStable I) {L : Level} (hL : LevelInv L) (hi : I L)
    (hc : L.cache ≠ none) (hp : L.InPlan) {s : Bytes} {x : Site} (h : windowLoopSite (s.length + 2) L s = some x)
    (herr : ∀ L s x, LevelInv L → I L → L.cache ≠ none → decodeWindowSite L s = some x → decodeWindow L s = .error) :
    (∃ L' o, decodeChunkWindows L s = .error L' o) ∧
      ∃ L' s', LevelInv L' ∧ I L' ∧ L'.cache ≠ none ∧ decodeWindowSite L' s' = some x := by
  obtain ⟨⟨o, k1⟩, k2⟩ := windowLoop_site hI hL hi hc hp h herr
  have k1 : winRun L s = .error o := k1
  rw [decodeChunkWindows_eq, k1]
  exact ⟨⟨_, _, rfl⟩, k2⟩

end Vcd
