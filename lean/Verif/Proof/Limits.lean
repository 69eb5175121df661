import Verif.Proof.WordSize
import Verif.Proof.Deliver
import Verif.Spec.Limits

/-!
# Decoders that differ in their limits
-/

namespace Vcd
open Spec

/-! ### Headers -/

theorem bind_either {α β : Type} {p : Parsed α} {f g : α → Bytes → Parsed β} {Q : Prop}
    (h : ∀ v r, p = .ok v r → g v r = f v r ∨ f v r = .error ∨ (g v r = .error ∧ Q)) :
    p.bind g = p.bind f ∨ p.bind f = .error ∨ (p.bind g = .error ∧ Q) := by
  cases p with
  | ok v r => exact h v r rfl
  | endOfData => exact Or.inl rfl
  | error => exact Or.inl rfl

theorem readHeader_lim (L : Level) (f w : Nat) (s : Bytes) :
    readHeader (L.setLim f w) s = readHeader L s ∨ readHeader L s = .error ∨
      (readHeader (L.setLim f w) s = .error ∧ ∃ n, n ≤ 2147483647 ∧ (n > w ∨ n > szSub f L.total)) := by
  unfold readHeader
  have e1 : (L.setLim f w).dict = L.dict := rfl
  have e2 : (L.setLim f w).decoded = L.decoded := rfl
  have e3 : (L.setLim f w).allowTarget = L.allowTarget := rfl
  have e4 : (L.setLim f w).allowExtensions = L.allowExtensions := rfl
  rw [e1, e2, e3, e4]
  apply bind_either
  intro isp r1 _
  apply bind_either
  intro dl r2 _
  apply bind_either
  intro tl r3 h3
  by_cases h1 : L.wouldExceed tl = true
  · exact Or.inr (Or.inl (if_pos h1))
  by_cases h2 : (L.setLim f w).wouldExceed tl = true
  · refine Or.inr (Or.inr ⟨if_pos h2, tl, Word.parseSize_le h3, ?_⟩)
    simp only [Level.wouldExceed, Level.setLim, Bool.or_eq_true, decide_eq_true_eq] at h1 h2
    rcases h2 with (h2 | h2) | h2
    · exact Or.inl (of_decide_eq_true h2)
    · exact absurd (Or.inl (Or.inr h2)) h1
    · exact Or.inr (of_decide_eq_true h2)
  · exact Or.inl (by rw [if_neg h1, if_neg h2])

/-! ### Windows -/

theorem decodeWindowBody_total {L L' : Level} {w : OpenWindow} {c : AddrCache} {s r : Bytes}
    (h : decodeWindowBody L w c s = .ok L' r ∨ decodeWindowBody L w c s = .endOfData L' r) : L'.total = L.total := by
  unfold decodeWindowBody at h
  simp only at h
  split at h
  · split at h
    · simp at h
    · simp at h
    · simp only [WinResult.ok.injEq, reduceCtorEq, or_false] at h
      rw [← h.1]
    · split at h
      · simp only [WinResult.endOfData.injEq, reduceCtorEq, false_or] at h
        rw [← h.1]
      · simp at h
  · split at h
    · simp at h
    · simp at h
    · simp at h
    · simp only [WinResult.ok.injEq, reduceCtorEq, or_false] at h
      rw [← h.1]

theorem decodeWindow_total {L L' : Level} {s r : Bytes} (h : decodeWindow L s = .ok L' r ∨ decodeWindow L s = .endOfData L' r) :
    L.total ≤ L'.total := by
  unfold decodeWindow at h
  split at h
  · split at h
    · simp only [WinResult.endOfData.injEq, reduceCtorEq, false_or] at h
      rw [← h.1]
      exact Nat.le_refl _
    · simp at h
    · split at h
      · simp at h
      · have := decodeWindowBody_total h
        simp only at this
        omega
  · split at h
    · simp at h
    · split at h
      · simp at h
      · exact Nat.le_of_eq (decodeWindowBody_total h).symm

theorem decodeWindow_lim (L : Level) (f w : Nat) (s : Bytes) :
    decodeWindow (L.setLim f w) s = (decodeWindow L s).setLim f w ∨ decodeWindow L s = .error ∨
      (decodeWindow (L.setLim f w) s = .error ∧ ∃ n, n ≤ 2147483647 ∧ (n > w ∨ n > szSub f L.total)) := by
  unfold decodeWindow
  have e1 : (L.setLim f w).win = L.win := rfl
  have e2 : (L.setLim f w).cache = L.cache := rfl
  rw [e1, e2]
  cases L.win with
  | none =>
    simp only
    rcases readHeader_lim L f w s with h | h | ⟨h, hn⟩
    · left
      rw [h]
      cases readHeader L s with
      | endOfData => rfl
      | error => rfl
      | ok hdr rest =>
        simp only
        cases L.cache.bind AddrCache.init with
        | none => rfl
        | some c =>
          simp only
          exact decodeWindowBody_setLim ({ L with total := L.total + hdr.targetLen } : Level) f w _ c rest
    · right; left
      rw [h]
    · right; right
      rw [h]
      exact ⟨rfl, hn⟩
  | some o =>
    left
    simp only
    split
    · rfl
    · cases L.cache with
      | none => rfl
      | some c => exact decodeWindowBody_setLim L f w o c s

/-! ### The loop over windows -/

def WindowsResult.setLim (f w : Nat) : WindowsResult → WindowsResult
  | .done L r o => .done (L.setLim f w) r o
  | r => r

/-- The text starts with `o`. -/
def WindowsResult.After (o : Bytes) : WindowsResult → Prop
  | .done _ _ o' => o <+: o'
  | .error o' => o <+: o'
  | .fault _ => True

theorem windowLoop_after (fuel : Nat) (L : Level) (s out : Bytes) : (windowLoop fuel L s out).After out := by
  induction fuel generalizing L s out with
  | zero => exact True.intro
  | succ fuel ih =>
    rw [windowLoop]
    split
    · exact List.prefix_refl _
    · cases decodeWindow L s with
      | fault f => exact True.intro
      | error => exact List.prefix_refl _
      | endOfData L' r => exact List.prefix_refl _
      | ok L' r =>
        simp only
        split
        · exact List.prefix_refl _
        · split
          · have := ih L'.flush.1 r (out ++ L'.flush.2)
            cases hr : windowLoop fuel L'.flush.1 r (out ++ L'.flush.2) with
            | fault f => exact True.intro
            | error o => rw [hr] at this; exact List.IsPrefix.trans (List.prefix_append _ _) this
            | done a b o => rw [hr] at this; exact List.IsPrefix.trans (List.prefix_append _ _) this
          · exact ih L' r out

theorem windowLoop_total {fuel : Nat} {L L' : Level} {s r out o : Bytes} (h : windowLoop fuel L s out = .done L' r o) : L.total ≤ L'.total := by
  induction fuel generalizing L s out with
  | zero => simp [windowLoop] at h
  | succ fuel ih =>
    rw [windowLoop] at h
    split at h
    · simp only [WindowsResult.done.injEq] at h
      rw [← h.1]
      exact Nat.le_refl _
    · cases hw : decodeWindow L s with
      | fault f => simp [hw] at h
      | error => simp [hw] at h
      | endOfData L1 r1 =>
        have := decodeWindow_total (Or.inr hw)
        simp only [hw, WindowsResult.done.injEq] at h
        rw [← h.1]
        exact this
      | ok L1 r1 =>
        have hle := decodeWindow_total (Or.inl hw)
        simp only [hw] at h
        split at h
        · simp only [WindowsResult.done.injEq] at h
          rw [← h.1]
          exact hle
        · split at h
          · exact Nat.le_trans hle (ih (L := L1.flush.1) h)
          · exact Nat.le_trans hle (ih h)

/-- How decoders that differ in their limits compare. -/
def LoopRel (f w : Nat) (R R' : WindowsResult) : Prop :=
  R' = R.setLim f w ∨ (∃ o, R = .error o ∧ R'.After o) ∨
    (∃ o, R' = .error o ∧ R.After o ∧ ∃ T n, (∀ L' r o', R = .done L' r o' → T ≤ L'.total) ∧ n ≤ 2147483647 ∧ (n > w ∨ n > szSub f T))

theorem windowLoop_lim (f w : Nat) (fuel : Nat) (L : Level) (s out : Bytes) :
    LoopRel f w (windowLoop fuel L s out) (windowLoop fuel (L.setLim f w) s out) := by
  induction fuel generalizing L s out with
  | zero => exact Or.inl rfl
  | succ fuel ih =>
    by_cases hs : s = []
    · rw [windowLoop, windowLoop, if_pos hs, if_pos hs]
      exact Or.inl rfl
    rcases decodeWindow_lim L f w s with h | h | ⟨h, n, hn⟩
    · rw [windowLoop, windowLoop, if_neg hs, if_neg hs, h]
      cases decodeWindow L s with
      | fault f => exact Or.inl rfl
      | error => exact Or.inl rfl
      | endOfData L' r => exact Or.inl rfl
      | ok L' r =>
        simp only [WinResult.setLim]
        have e1 : (L'.setLim f w).reachedPlanned = L'.reachedPlanned := rfl
        have e2 : (L'.setLim f w).allowTarget = L'.allowTarget := rfl
        rw [e1, e2]
        split
        · exact Or.inl rfl
        · split
          · exact ih L'.flush.1 r (out ++ L'.flush.2)
          · exact ih L' r out
    · right; left
      refine ⟨out, ?_, windowLoop_after _ _ _ _⟩
      rw [windowLoop, if_neg hs, h]
    · right; right
      refine ⟨out, ?_, windowLoop_after _ _ _ _, L.total, n, fun L' r o' hd => windowLoop_total hd, hn⟩
      rw [windowLoop, if_neg hs, h]

/-! ### Chunks -/

def ChunkResult.setLim (f w : Nat) : ChunkResult → ChunkResult
  | .ok L ns o => .ok (L.setLim f w) ns o
  | .error L o => .error (L.setLim f w) o
  | .fault x => .fault x

/-- The text starts with `o`. -/
def ChunkResult.After (o : Bytes) : ChunkResult → Prop
  | .ok _ _ o' => o <+: o'
  | .error _ o' => o <+: o'
  | .fault _ => True

/-- How decoders that differ in their limits compare. -/
def LimitRel (f w : Nat) (R R' : ChunkResult) : Prop :=
  R' = R.setLim f w ∨ (∃ L o, R = .error L o ∧ R'.After o ∧ ∀ L' o', R' = .error L' o' → L' = L.setLim f w) ∨
    (∃ L o, R' = .error L o ∧ R.After o ∧ (∀ L' o', R = .error L' o' → L = L'.setLim f w) ∧ ∃ T n, (∀ L' ns o', R = .ok L' ns o' → T ≤ L'.total) ∧ n ≤ 2147483647 ∧ (n > w ∨ n > szSub f T))

theorem decodeChunkWindows_lim (f w : Nat) (L : Level) (s : Bytes) :
    LimitRel f w (decodeChunkWindows L s) (decodeChunkWindows (L.setLim f w) s) := by
  have after : ∀ (L : Level) (o : Bytes), (windowLoop (s.length + 2) L s []).After o → (decodeChunkWindows L s).After o := by
    intro L o h
    unfold decodeChunkWindows
    cases hr : windowLoop (s.length + 2) L s [] with
    | fault x => exact True.intro
    | error o' => rw [hr] at h; exact h
    | done L' r o' =>
      rw [hr] at h
      exact List.IsPrefix.trans h (List.prefix_append _ _)
  have err : ∀ (L L' : Level) (o : Bytes), decodeChunkWindows L s = .error L' o → L' = ({ L with unparsed := [], decoded := [] } : Level).reset := by
    intro L L' o h
    unfold decodeChunkWindows at h
    cases hr : windowLoop (s.length + 2) L s [] with
    | fault x => simp [hr] at h
    | error o' =>
      simp only [hr, ChunkResult.error.injEq] at h
      exact h.1.symm
    | done L1 r o1 => simp [hr, endChunk] at h
  rcases windowLoop_lim f w (s.length + 2) L s [] with h | ⟨o, h1, h2⟩ | ⟨o, h1, h2, T, n, h3, h4⟩
  · left
    unfold decodeChunkWindows
    rw [h]
    cases windowLoop (s.length + 2) L s [] <;> rfl
  · right; left
    refine ⟨({ L with unparsed := [], decoded := [] } : Level).reset, o, ?_, after _ _ h2, fun L' o' he => err _ _ _ he⟩
    unfold decodeChunkWindows
    rw [h1]
  · right; right
    refine ⟨({ (L.setLim f w) with unparsed := [], decoded := [] } : Level).reset, o, ?_, after _ _ h2, ?_, T, n, ?_, h4⟩
    · unfold decodeChunkWindows
      rw [h1]
    · intro L' o' he
      rw [err _ _ _ he]
      rfl
    · intro L' ns o' hd
      unfold decodeChunkWindows at hd
      cases hr : windowLoop (s.length + 2) L s [] with
      | fault x => simp [hr] at hd
      | error o1 => simp [hr] at hd
      | done L1 r o1 =>
        rw [hr] at hd
        simp only [endChunk, Level.appendNewOutput, ChunkResult.ok.injEq] at hd
        rw [← hd.1]
        exact h3 L1 _ _ hr

theorem afterCodeTableChunk_lim (f w : Nat) (L n : Level) (ns : List Level) (s text : Bytes) :
    LimitRel f w (afterCodeTableChunk L n ns s text) (afterCodeTableChunk (L.setLim f w) n ns s text) := by
  unfold afterCodeTableChunk
  simp only
  have e1 : (L.setLim f w).tableString = L.tableString := rfl
  have e2 : (L.setLim f w).cache = L.cache := rfl
  have e3 : (L.setLim f w).table = L.table := rfl
  rw [e1, e2, e3]
  split
  · exact Or.inl rfl
  · split
    · exact Or.inl rfl
    · split
      · split
        · exact Or.inl rfl
        · exact decodeChunkWindows_lim f w
            { L with tableString := [], table := _ } _
      · exact Or.inl rfl

theorem tableStep_lim (f w : Nat) (rec : Level → List Level → Bytes → ChunkResult) (L : Level) (ns : List Level) (s : Bytes) :
    LimitRel f w (tableStep rec L ns s) (tableStep rec (L.setLim f w) ns s) := by
  cases ns with
  | nil => exact decodeChunkWindows_lim f w L s
  | cons n ns =>
    unfold tableStep
    simp only
    cases rec n ns s with
    | fault x => exact Or.inl rfl
    | error L' o => exact Or.inl rfl
    | ok n' ns' text => exact afterCodeTableChunk_lim f w L n' ns' s text

theorem chunkRun_lim (f w : Nat) (L : Level) (ns : List Level) (data : Bytes) :
    LimitRel f w (chunkRun L ns data) (chunkRun (L.setLim f w) ns data) := by
  rw [chunkRun_eq, chunkRun_eq]
  unfold chunkStep
  have e1 : (L.setLim f w).started = L.started := rfl
  have e2 : (L.setLim f w).cache = L.cache := rfl
  have e3 : (L.setLim f w).unparsed = L.unparsed := rfl
  rw [e1, e2, e3]
  split
  · exact Or.inl rfl
  · cases L.cache with
    | some c => exact tableStep_lim f w chunkRun L ns _
    | none =>
      simp only
      cases readFileHeader (L.unparsed ++ data) with
      | error => exact Or.inl rfl
      | endOfData => exact Or.inl rfl
      | ok hdr rest =>
        simp only
        have : (L.setLim f w).withHeader hdr = (L.withHeader hdr).setLim f w := by
          unfold Level.withHeader
          split <;> rfl
        rw [this]
        exact tableStep_lim f w chunkRun _ _ _

/-! ### Calls -/

/-- The decoders differ at most in their limits. -/
def SameButLimits (d d' : Decoder) : Prop := d' = { d with top := d.top.setLim d'.top.maxFile d'.top.maxWin }

theorem SameButLimits.refl (d : Decoder) : SameButLimits d d := rfl

theorem SameButLimits.symm {d d' : Decoder} (h : SameButLimits d d') : SameButLimits d' d := by
  unfold SameButLimits at *
  rw [h]
  rfl

theorem SameButLimits.of {d d' : Decoder} {f w : Nat} (h : d' = { d with top := d.top.setLim f w }) : SameButLimits d d' := by
  unfold SameButLimits
  rw [h]
  rfl

theorem SameButLimits.trans {a b c : Decoder} (h : SameButLimits a b) (h' : SameButLimits b c) : SameButLimits a c := by
  unfold SameButLimits at *
  rw [h'] 
  rw [h]
  rfl

/-- A call that sets a limit changes nothing else. -/
theorem limit_call {d d' : Decoder} {c : DecoderCall} {r : DecoderReply} (hc : setsLimit c = true) (h : d.call c = .ok (r, d')) :
    SameButLimits d d' ∧ r.out = [] := by
  cases c with
  | setMaxFile n =>
    simp only [Decoder.call, Except.ok.injEq, Prod.mk.injEq] at h
    rw [← h.1, ← h.2]
    exact ⟨SameButLimits.of (f := n) (w := d.top.maxWin) rfl, rfl⟩
  | setMaxWin n =>
    simp only [Decoder.call, Except.ok.injEq, Prod.mk.injEq] at h
    rw [← h.1, ← h.2]
    unfold Decoder.setMaxWin
    split
    · exact ⟨SameButLimits.refl d, rfl⟩
    · exact ⟨SameButLimits.of (f := d.top.maxFile) (w := n) rfl, rfl⟩
  | start dict => simp [setsLimit] at hc
  | chunk data => simp [setsLimit] at hc
  | finish => simp [setsLimit] at hc
  | setAllowTarget b => simp [setsLimit] at hc

/-- The other calls, made to decoders that differ in their limits. -/
theorem other_call {d d' e e' : Decoder} {c : DecoderCall} {r r' : DecoderReply} (hd : SameButLimits d d') (hc : setsLimit c = false)
    (h : d.call c = .ok (r, e)) (h' : d'.call c = .ok (r', e')) :
    (r = r' ∧ SameButLimits e e') ∨
      ∃ data, c = .chunk data ∧ ((r.ret = false ∧ r.out <+: r'.out) ∨ (r'.ret = false ∧ r'.out <+: r.out)) ∧
        (r.ret = false → r'.ret = false → SameButLimits e e') := by
  unfold SameButLimits at hd
  cases c with
  | setMaxFile n => simp [setsLimit] at hc
  | setMaxWin n => simp [setsLimit] at hc
  | start dict =>
    left
    simp only [Decoder.call, Except.ok.injEq, Prod.mk.injEq] at h h'
    rw [← h.1, ← h'.1, ← h.2, ← h'.2]
    refine ⟨rfl, SameButLimits.of (f := d'.top.maxFile) (w := d'.top.maxWin) ?_⟩
    rw [hd]
    simp only [Decoder.start, Level.start]
    change (if d.top.started = true then _ else _) = _
    by_cases hs : d.top.started = true
    · rw [if_pos hs, if_pos hs]
      rfl
    · have hs' : (d.top.setLim d'.top.maxFile d'.top.maxWin).started ≠ true := hs
      rw [if_neg hs, if_neg hs, if_neg hs', if_neg hs]
      rfl
  | finish =>
    left
    simp only [Decoder.call, Except.ok.injEq, Prod.mk.injEq] at h h'
    rw [← h.1, ← h'.1, ← h.2, ← h'.2, hd]
    exact ⟨rfl, SameButLimits.of (f := d'.top.maxFile) (w := d'.top.maxWin) rfl⟩
  | setAllowTarget b =>
    left
    simp only [Decoder.call, Except.ok.injEq, Prod.mk.injEq] at h h'
    rw [← h.1, ← h'.1, ← h.2, ← h'.2, hd]
    refine ⟨rfl, SameButLimits.of (f := d'.top.maxFile) (w := d'.top.maxWin) ?_⟩
    unfold Decoder.setAllowTarget
    change (if d.top.started = true then _ else _) = _
    split <;> rfl
  | chunk data =>
    rw [hd] at h'
    simp only [Decoder.call, decodeChunk_eq] at h h'
    rcases chunkRun_lim d'.top.maxFile d'.top.maxWin d.top d.nested data with k | ⟨L, o, k1, k2, k3⟩ | ⟨L, o, k1, k2, k3, _⟩
    · left
      rw [k] at h'
      cases hr : chunkRun d.top d.nested data with
      | fault x => simp [hr] at h
      | ok L ns o =>
        simp only [hr, ChunkResult.setLim, Except.ok.injEq, Prod.mk.injEq] at h h'
        rw [← h.1, ← h'.1, ← h.2, ← h'.2]
        exact ⟨rfl, SameButLimits.of (f := d'.top.maxFile) (w := d'.top.maxWin) rfl⟩
      | error L o =>
        simp only [hr, ChunkResult.setLim, Except.ok.injEq, Prod.mk.injEq] at h h'
        rw [← h.1, ← h'.1, ← h.2, ← h'.2]
        exact ⟨rfl, SameButLimits.of (f := d'.top.maxFile) (w := d'.top.maxWin) rfl⟩
    · right
      simp only [k1, Except.ok.injEq, Prod.mk.injEq] at h
      obtain ⟨rfl, rfl⟩ := h
      cases hr : chunkRun (d.top.setLim d'.top.maxFile d'.top.maxWin) d.nested data with
      | fault x => simp [hr] at h'
      | ok L ns o =>
        rw [hr] at k2
        simp only [hr, Except.ok.injEq, Prod.mk.injEq] at h'
        obtain ⟨rfl, rfl⟩ := h'
        exact ⟨data, rfl, Or.inl ⟨rfl, k2⟩, fun _ hx => by simp at hx⟩
      | error L1 o =>
        rw [hr] at k2
        simp only [hr, Except.ok.injEq, Prod.mk.injEq] at h'
        obtain ⟨rfl, rfl⟩ := h'
        refine ⟨data, rfl, Or.inl ⟨rfl, k2⟩, fun _ _ => SameButLimits.of (f := d'.top.maxFile) (w := d'.top.maxWin) ?_⟩
        rw [k3 _ _ hr]
    · right
      simp only [k1, Except.ok.injEq, Prod.mk.injEq] at h'
      obtain ⟨rfl, rfl⟩ := h'
      cases hr : chunkRun d.top d.nested data with
      | fault x => simp [hr] at h
      | ok L ns o =>
        rw [hr] at k2
        simp only [hr, Except.ok.injEq, Prod.mk.injEq] at h
        obtain ⟨rfl, rfl⟩ := h
        exact ⟨data, rfl, Or.inr ⟨rfl, k2⟩, fun hx => by simp at hx⟩
      | error L1 o =>
        rw [hr] at k2
        simp only [hr, Except.ok.injEq, Prod.mk.injEq] at h
        obtain ⟨rfl, rfl⟩ := h
        refine ⟨data, rfl, Or.inr ⟨rfl, k2⟩, fun _ _ => SameButLimits.of (f := d'.top.maxFile) (w := d'.top.maxWin) ?_⟩
        rw [k3 _ _ hr]

theorem answers_limit {c : DecoderCall} (hc : setsLimit c = true) (cs : List DecoderCall) (r : DecoderReply) (rs : List DecoderReply) :
    answers (c :: cs) (r :: rs) = answers cs rs := by
  simp [answers, hc]

theorem answers_other {c : DecoderCall} (hc : setsLimit c = false) (cs : List DecoderCall) (r : DecoderReply) (rs : List DecoderReply) :
    answers (c :: cs) (r :: rs) = (c, r) :: answers cs rs := by
  simp [answers, hc]

/-- Calls that set limits, before the first other one. -/
theorem skip_limits {d d' : Decoder} {cs : List DecoderCall} {rs : List DecoderReply} (h : d.calls cs = .ok (rs, d')) :
    (cs.filter (fun c => !setsLimit c) = [] ∧ answers cs rs = [] ∧ SameButLimits d d') ∨
      ∃ c cs1 r rs1 d1 d2, cs.filter (fun c => !setsLimit c) = c :: cs1.filter (fun c => !setsLimit c) ∧ setsLimit c = false ∧
        SameButLimits d d1 ∧ d1.call c = .ok (r, d2) ∧ d2.calls cs1 = .ok (rs1, d') ∧ answers cs rs = (c, r) :: answers cs1 rs1 ∧ cs1.length < cs.length := by
  induction cs generalizing d rs with
  | nil =>
    simp only [Decoder.calls, Except.ok.injEq, Prod.mk.injEq] at h
    rw [← h.2]
    exact Or.inl ⟨rfl, rfl, SameButLimits.refl d⟩
  | cons c cs ih =>
    obtain ⟨r, d1, rs', h1, h2, rfl⟩ := calls_cons_ok h
    cases hc : setsLimit c with
    | true =>
      rw [answers_limit hc]
      have hf : (c :: cs).filter (fun c => !setsLimit c) = cs.filter (fun c => !setsLimit c) := by simp [hc]
      rw [hf]
      rcases ih h2 with k | ⟨c', cs1, r', rs1, e1, e2, k1, k2, k3, k4, k5, k6, k7⟩
      · exact Or.inl ⟨k.1, k.2.1, (limit_call hc h1).1.trans k.2.2⟩
      · exact Or.inr ⟨c', cs1, r', rs1, e1, e2, k1, k2, (limit_call hc h1).1.trans k3, k4, k5, k6, by simp; omega⟩
    | false =>
      right
      refine ⟨c, cs, r, rs', d, d1, ?_, hc, SameButLimits.refl d, h1, h2, answers_other hc _ _ _, by simp⟩
      simp [hc]

theorem agree {d d' e e' : Decoder} {cs cs' : List DecoderCall} {rs rs' : List DecoderReply} (hd : SameButLimits d d')
    (hcs : cs.filter (fun c => !setsLimit c) = cs'.filter (fun c => !setsLimit c))
    (h : d.calls cs = .ok (rs, e)) (h' : d'.calls cs' = .ok (rs', e')) : AgreeUntilRefusal (answers cs rs) (answers cs' rs') := by
  generalize hn : cs.length = n
  induction n using Nat.strongRecOn generalizing d d' cs cs' rs rs' with
  | _ n ih =>
    rcases skip_limits h with ⟨k1, k2, _⟩ | ⟨c, cs1, r, rs1, d1, d2, k1, k2, k3, k4, k5, k6, k7⟩
    · rcases skip_limits h' with ⟨j1, j2, _⟩ | ⟨c', cs1', r', rs1', d1', d2', j1, j2, j3, j4, j5, j6, j7⟩
      · rw [k2, j2]
        exact True.intro
      · rw [k1, j1] at hcs
        simp at hcs
    · rcases skip_limits h' with ⟨j1, j2, _⟩ | ⟨c', cs1', r', rs1', d1', d2', j1, j2, j3, j4, j5, j6, j7⟩
      · rw [k1, j1] at hcs
        simp at hcs
      · rw [k1, j1, List.cons.injEq] at hcs
        obtain ⟨rfl, hcs⟩ := hcs
        rw [k6, j6]
        refine ⟨rfl, ?_⟩
        rcases other_call (k3.symm.trans (hd.trans j3)) k2 k4 j4 with ⟨m1, m2⟩ | m
        · exact Or.inl ⟨m1, ih cs1.length (by omega) m2 hcs k5 j5 rfl⟩
        · exact Or.inr (by obtain ⟨data, m1, m2, _⟩ := m; exact ⟨data, m1, m2⟩)

/-- If the replies are the same, the decoders are, except for the limits. -/
theorem agree_state {d d' e e' : Decoder} {cs cs' : List DecoderCall} {rs rs' : List DecoderReply} (hd : SameButLimits d d')
    (h : d.calls cs = .ok (rs, e)) (h' : d'.calls cs' = .ok (rs', e')) (ha : answers cs rs = answers cs' rs') : SameButLimits e e' := by
  generalize hn : cs.length = n
  induction n using Nat.strongRecOn generalizing d d' cs cs' rs rs' with
  | _ n ih =>
    rcases skip_limits h with ⟨k1, k2, k3⟩ | ⟨c, cs1, r, rs1, d1, d2, k1, k2, k3, k4, k5, k6, k7⟩
    · rcases skip_limits h' with ⟨j1, j2, j3⟩ | ⟨c', cs1', r', rs1', d1', d2', j1, j2, j3, j4, j5, j6, j7⟩
      · exact k3.symm.trans (hd.trans j3)
      · rw [k2, j6] at ha
        simp at ha
    · rcases skip_limits h' with ⟨j1, j2, j3⟩ | ⟨c', cs1', r', rs1', d1', d2', j1, j2, j3, j4, j5, j6, j7⟩
      · rw [k6, j2] at ha
        simp at ha
      · rw [k6, j6, List.cons.injEq, Prod.mk.injEq] at ha
        obtain ⟨⟨rfl, rfl⟩, ha⟩ := ha
        have hs : SameButLimits d2 d2' := by
          rcases other_call (k3.symm.trans (hd.trans j3)) k2 k4 j4 with ⟨_, m2⟩ | ⟨data, m1, m2, m3⟩
          · exact m2
          · have : r.ret = false := by rcases m2 with m2 | m2 <;> exact m2.1
            exact m3 this this
        exact ih cs1.length (by omega) hs k5 j5 ha rfl

/-- Decoders that differ in their limits are the same when these have been set. -/
theorem SameButLimits.set {d d' : Decoder} (h : SameButLimits d d') (m w : Nat) (hw : w ≤ 2147483647) :
    ((d.setMaxFile m).2.setMaxWin w).2 = ((d'.setMaxFile m).2.setMaxWin w).2 := by
  have hw' : ¬ w > targetSizeLimit := by
    have : targetSizeLimit = 2147483647 := rfl
    omega
  unfold SameButLimits at h
  rw [h]
  unfold Decoder.setMaxWin
  rw [if_neg hw', if_neg hw']
  rfl

/-! ### The size of the output -/

theorem owed_le {L : Level} (h : LevelInv L) : L.owed ≤ 2147483647 := by
  unfold Level.owed
  cases hw : L.win with
  | none => exact Nat.zero_le _
  | some w =>
    obtain ⟨_, _, c, n, m, _, ho⟩ := h.opened w hw
    have h1 := ho.win.tgtLe
    have h2 : L.startPos ≤ L.decoded.length := ho.win.start
    have h3 : w.hdr.targetLen ≤ 2147483647 := h1
    simp only
    omega

theorem never_too_low {d d2 : Decoder} (hi : DecInv d) {cs : List DecoderCall} (hcs : ∀ c ∈ cs, decodesOrSetsLimit c) {rs : List DecoderReply} {n : Nat}
    (hle : d.top.started = true → d.top.total ≤ d.top.maxFile ∧ d.top.total = n + d.top.owed) (hn : n ≤ d.top.maxFile)
    (h : d.calls cs = .ok (rs, d2)) (hl : NeverTooLow d.top.maxFile n (cs.zip rs)) : n + (allOut rs).length ≤ lastFileLimit d.top.maxFile cs := by
  induction cs generalizing d rs n with
  | nil =>
    simp only [Decoder.calls, Except.ok.injEq, Prod.mk.injEq] at h
    rw [← h.1]
    simpa [allOut, lastFileLimit] using hn
  | cons c cs ih =>
    obtain ⟨r, d1, rs', h1, h2, rfl⟩ := calls_cons_ok h
    have hi1 := hi.call h1
    have hlen : (allOut (r :: rs')).length = r.out.length + (allOut rs').length := by simp [allOut]
    rw [hlen, ← Nat.add_assoc]
    have hcs' : ∀ c ∈ cs, decodesOrSetsLimit c := fun c hx => hcs c (by simp [hx])
    cases c with
    | start dict => rcases hcs (.start dict) (by simp) with hx | ⟨data, hx⟩ <;> simp [setsLimit] at hx
    | finish => rcases hcs .finish (by simp) with hx | ⟨data, hx⟩ <;> simp [setsLimit] at hx
    | setAllowTarget b => rcases hcs (.setAllowTarget b) (by simp) with hx | ⟨data, hx⟩ <;> simp [setsLimit] at hx
    | setMaxWin m =>
      simp only [Decoder.call, Except.ok.injEq, Prod.mk.injEq] at h1
      obtain ⟨rfl, rfl⟩ := h1
      have e : (d.setMaxWin m).2.top.maxFile = d.top.maxFile ∧ (d.setMaxWin m).2.top.started = d.top.started ∧
          (d.setMaxWin m).2.top.total = d.top.total ∧ (d.setMaxWin m).2.top.owed = d.top.owed := by
        unfold Decoder.setMaxWin
        split <;> exact ⟨rfl, rfl, rfl, rfl⟩
      have hl' : NeverTooLow d.top.maxFile n (cs.zip rs') := hl
      have := ih (n := n) hi1 hcs' (by rw [e.1, e.2.1, e.2.2.1, e.2.2.2]; exact hle) (by rw [e.1]; exact hn) h2 (by rw [e.1]; exact hl')
      rw [e.1] at this
      exact this
    | setMaxFile m =>
      simp only [Decoder.call, Except.ok.injEq, Prod.mk.injEq] at h1
      obtain ⟨rfl, rfl⟩ := h1
      obtain ⟨hl1, hl2⟩ : (d.top.maxFile ≤ m ∨ n + 2147483647 ≤ m) ∧ NeverTooLow m n (cs.zip rs') := hl
      refine ih (d := (d.setMaxFile m).2) (n := n) hi1 hcs' ?_ ?_ h2 hl2
      · intro hs
        have hs' : d.top.started = true := hs
        obtain ⟨a1, a2⟩ := hle hs'
        have ho := owed_le (hi hs').1.node.inv
        refine ⟨?_, a2⟩
        change d.top.total ≤ m
        omega
      · change n ≤ m
        omega
    | chunk data =>
      have hl' : NeverTooLow d.top.maxFile (n + r.out.length) (cs.zip rs') := hl
      by_cases hs : d.top.started = true
      · obtain ⟨hch, hpl⟩ := hi hs
        obtain ⟨a1, a2⟩ := hle hs
        obtain ⟨c1, c2, _⟩ := chunk_inv hch data
        simp only [Decoder.call, decodeChunk_eq] at h1
        cases hr : chunkRun d.top d.nested data with
        | fault f => simp [hr] at h1
        | error L o =>
          simp only [hr, Except.ok.injEq, Prod.mk.injEq] at h1
          obtain ⟨rfl, rfl⟩ := h1
          have he := c2 _ _ hr
          have hf := he.file a1
          have hm : L.maxFile = d.top.maxFile := he.maxFile
          have := ih (n := n + o.length) hi1 hcs' (fun hx => by
            have hx' : L.started = true := hx
            rw [he.stopped] at hx'; simp at hx')
            (by change n + o.length ≤ L.maxFile; omega) h2 (by change NeverTooLow L.maxFile _ _; rw [hm]; exact hl')
          change n + o.length + _ ≤ lastFileLimit d.top.maxFile cs
          rw [← hm]
          exact this
        | ok L ns o =>
          simp only [hr, Except.ok.injEq, Prod.mk.injEq] at h1
          obtain ⟨rfl, rfl⟩ := h1
          have he := c1 _ _ _ hr
          have hf := he.file a1
          have ht := he.total
          have hm : L.maxFile = d.top.maxFile := he.config.maxFile
          have := ih (n := n + o.length) hi1 hcs' (fun _ => ⟨hf, by change L.total = n + o.length + L.owed; omega⟩)
            (by change n + o.length ≤ L.maxFile; omega) h2 (by change NeverTooLow L.maxFile _ _; rw [hm]; exact hl')
          change n + o.length + _ ≤ lastFileLimit d.top.maxFile cs
          rw [← hm]
          exact this
      · have hs' : d.top.started = false := by simpa using hs
        rw [chunk_stopped hs'] at h1
        simp only [Except.ok.injEq, Prod.mk.injEq] at h1
        obtain ⟨rfl, rfl⟩ := h1
        exact ih (n := n) hi1 hcs' (fun hx => by simp [Level.reset] at hx) hn h2 hl'

/-! ### The largest limits -/

theorem SameButLimits.largest {d d' : Decoder} (h : SameButLimits d d') : largestLimits d = largestLimits d' :=
  h.set _ _ (Nat.le_refl _)

theorem largest_feed {d d2 : Decoder} (hi : DecInv d) (hs : d.top.started = true) {cs : List DecoderCall} (hcs : ∀ c ∈ cs, decodesOrSetsLimit c)
    {rs : List DecoderReply} {n : Nat} (hn : d.top.total = n + d.top.owed) (h : d.calls cs = .ok (rs, d2))
    (hr : ∀ p ∈ answers cs rs, p.2.ret = true) (hl : n + (allOut rs).length ≤ 9223372036854775808) :
    (largestLimits d).feed (chunksOf cs) = some (allOut rs, largestLimits d2) := by
  induction cs generalizing d rs n with
  | nil =>
    simp only [Decoder.calls, Except.ok.injEq, Prod.mk.injEq] at h
    obtain ⟨rfl, rfl⟩ := h
    rfl
  | cons c cs ih =>
    obtain ⟨r, d1, rs', h1, h2, rfl⟩ := calls_cons_ok h
    have hi1 := hi.call h1
    have hlen : (allOut (r :: rs')).length = r.out.length + (allOut rs').length := by simp [allOut]
    have hcs' : ∀ c ∈ cs, decodesOrSetsLimit c := fun c hx => hcs c (by simp [hx])
    rcases hcs c (by simp) with hc | ⟨data, rfl⟩
    · obtain ⟨k1, k2⟩ := limit_call hc h1
      rw [answers_limit hc] at hr
      have e1 : chunksOf (c :: cs) = chunksOf cs := by
        cases c <;> first | rfl | simp [setsLimit] at hc
      have e2 : allOut (r :: rs') = allOut rs' := by simp [allOut, k2]
      rw [e1, e2, k1.largest]
      rw [e2] at hl
      unfold SameButLimits at k1
      exact ih hi1 (by rw [k1]; exact hs) hcs' (by rw [k1]; exact hn) h2 hr hl
    · rw [answers_other rfl] at hr
      have hrt := hr _ List.mem_cons_self
      have hr' : ∀ p ∈ answers cs rs', p.2.ret = true := fun p hx => hr p (List.mem_cons_of_mem _ hx)
      obtain ⟨hch, hpl⟩ := hi hs
      obtain ⟨c1, c2, _⟩ := chunk_inv hch data
      simp only [Decoder.call, decodeChunk_eq] at h1
      cases hx : chunkRun d.top d.nested data with
      | fault f => simp [hx] at h1
      | error L o =>
        simp only [hx, Except.ok.injEq, Prod.mk.injEq] at h1
        obtain ⟨rfl, rfl⟩ := h1
        simp at hrt
      | ok L ns o =>
        simp only [hx, Except.ok.injEq, Prod.mk.injEq] at h1
        obtain ⟨rfl, rfl⟩ := h1
        have he := c1 _ _ _ hx
        have ht := he.total
        have ho := owed_le he.inv.node.inv
        rw [hlen] at hl
        have e3 : chunksOf (.chunk data :: cs) = data :: chunksOf cs := rfl
        have e4 : allOut (⟨true, o⟩ :: rs') = o ++ allOut rs' := by simp [allOut]
        have hb : (largestLimits d).decodeChunk data = .ok (L.setLim 18446744073709551615 2147483647) ns o := by
          rw [decodeChunk_eq]
          have e5 : largestLimits d = { d with top := d.top.setLim 18446744073709551615 2147483647 } := rfl
          rw [e5]
          rcases chunkRun_lim 18446744073709551615 2147483647 d.top d.nested data with k | ⟨L1, o1, k, _⟩ | ⟨L1, o1, k, _, _, T, m, k1, k2, k3⟩
          · simp only
            rw [k, hx]
            rfl
          · rw [hx] at k
            simp at k
          · have hT := k1 _ _ _ hx
            have hl2 : n + (o.length + (allOut rs').length) ≤ 9223372036854775808 := hl
            rw [szSub_eq (by omega)] at k3
            omega
        rw [e3, e4, Decoder.feed, hb]
        simp only
        have hl2 : n + o.length + (allOut rs').length ≤ 9223372036854775808 := by
          have : n + (o.length + (allOut rs').length) ≤ 9223372036854775808 := hl
          omega
        have := ih (d := { top := L, nested := ns }) (n := n + o.length) hi1 (by change L.started = true; rw [he.config.started]; exact hs) hcs'
          (by change L.total = n + o.length + L.owed; omega) h2 hr' hl2
        have e6 : largestLimits { top := L, nested := ns } = { top := L.setLim 18446744073709551615 2147483647, nested := ns } := rfl
        rw [e6] at this
        rw [this]

end Vcd
