import Verif.Spec.Debug
import Verif.Proof.DebugPlain

/-!
# Histories of calls of a debug build
-/

namespace Vcd
open Spec

theorem call_active {d d' : Decoder} {c : DecoderCall} {r : DecoderReply} (hi : DecInv d) (h : d.call c = .ok (r, d')) :
    d'.top.started = activeStep d.top.started (c, r) := by
  cases c with
  | start dict =>
    simp only [Decoder.call, Except.ok.injEq, Prod.mk.injEq] at h
    rw [← h.2]
    by_cases hs : d.top.started = true
    · have : d.start dict = d := by simp [Decoder.start, hs]
      rw [this, hs]; rfl
    · rw [start_fresh (by simpa using hs)]; rfl
  | finish =>
    simp only [Decoder.call, Except.ok.injEq, Prod.mk.injEq] at h
    rw [← h.2]
    rfl
  | setMaxFile n =>
    simp only [Decoder.call, Except.ok.injEq, Prod.mk.injEq] at h
    rw [← h.2]; rfl
  | setMaxWin n =>
    simp only [Decoder.call, Except.ok.injEq, Prod.mk.injEq] at h
    rw [← h.2]
    unfold Decoder.setMaxWin
    split <;> rfl
  | setAllowTarget b =>
    simp only [Decoder.call, Except.ok.injEq, Prod.mk.injEq] at h
    rw [← h.2]
    unfold Decoder.setAllowTarget
    split <;> rfl
  | chunk data =>
    by_cases hs : d.top.started = true
    · simp only [Decoder.call, decodeChunk_eq] at h
      cases hr : chunkRun d.top d.nested data with
      | fault f => simp [hr] at h
      | error L o =>
        simp only [hr, Except.ok.injEq, Prod.mk.injEq] at h
        rw [← h.2, ← h.1]
        have := ((chunk_inv (hi hs).1 data).2.1 _ _ hr).stopped
        simp only [this, activeStep, Bool.and_false]
      | ok L ns o =>
        simp only [hr, Except.ok.injEq, Prod.mk.injEq] at h
        rw [← h.2, ← h.1]
        have := ((chunk_inv (hi hs).1 data).1 _ _ _ hr).inv.node.started
        simp only [this, activeStep, hs, Bool.and_true]
    · have hs' : d.top.started = false := by simpa using hs
      rw [chunk_stopped hs'] at h
      simp only [Except.ok.injEq, Prod.mk.injEq] at h
      rw [← h.2, hs']
      rfl

theorem calls_active {d d' : Decoder} {cs : List DecoderCall} {rs : List DecoderReply} (hi : DecInv d)
    (h : d.calls cs = .ok (rs, d')) : d'.top.started = (cs.zip rs).foldl activeStep d.top.started := by
  induction cs generalizing d rs with
  | nil =>
    simp only [Decoder.calls, Except.ok.injEq, Prod.mk.injEq] at h
    rw [← h.2]; rfl
  | cons c cs ih =>
    obtain ⟨r, d1, rs', h1, h2, rfl⟩ := calls_cons_ok h
    rw [List.zip_cons_cons, List.foldl_cons, ← call_active hi h1]
    exact ih (hi.call h1) h2

/-- A debug build does what a release build does, or exits. -/
theorem debugCall_eq (d : Decoder) (c : DecoderCall) :
    (∃ x, d.callSite c = some x ∧ d.debugCall c = .exits x) ∨ (d.callSite c = none ∧ d.debugCall c = asRelease (d.call c)) := by
  unfold Decoder.debugCall
  cases d.callSite c with
  | some x => exact Or.inl ⟨x, rfl, rfl⟩
  | none =>
    refine Or.inr ⟨rfl, ?_⟩
    cases d.call c <;> rfl

theorem debugCalls_exits {d : Decoder} {cs : List DecoderCall} {x : Site} (h : d.debugCalls cs = .exits x) :
    ∃ cs1 c cs2 rs d', cs = cs1 ++ c :: cs2 ∧ d.debugCalls cs1 = .returns (rs, d') ∧ d.calls cs1 = .ok (rs, d') ∧ d'.callSite c = some x := by
  induction cs generalizing d with
  | nil => simp [Decoder.debugCalls] at h
  | cons c cs ih =>
    rw [Decoder.debugCalls] at h
    rcases debugCall_eq d c with ⟨y, h1, h2⟩ | ⟨h1, h2⟩
    · simp only [h2, DebugResult.exits.injEq] at h
      exact ⟨[], c, cs, [], d, rfl, rfl, rfl, h ▸ h1⟩
    · rw [h2] at h
      cases hc : d.call c with
      | error f => simp [hc, asRelease] at h
      | ok q =>
        obtain ⟨r, d1⟩ := q
        simp only [hc, asRelease] at h
        have hx : d1.debugCalls cs = .exits x := by
          cases hd : d1.debugCalls cs with
          | exits y => simpa [hd] using h
          | fault f => simp [hd] at h
          | returns q => simp [hd] at h
        obtain ⟨cs1, c', cs2, rs, d', k1, k2, k3, k4⟩ := ih hx
        refine ⟨c :: cs1, c', cs2, r :: rs, d', by rw [k1]; rfl, ?_, ?_, k4⟩
        · rw [Decoder.debugCalls, h2, hc]
          simp only [asRelease, k2]
        · rw [calls_cons hc, k3]

theorem debugCalls_append {d d' : Decoder} {cs1 cs2 : List DecoderCall} {rs : List DecoderReply}
    (h : d.debugCalls cs1 = .returns (rs, d')) :
    d.debugCalls (cs1 ++ cs2) =
      match d'.debugCalls cs2 with
      | .exits x => .exits x
      | .fault f => .fault f
      | .returns (rs', d'') => .returns (rs ++ rs', d'') := by
  induction cs1 generalizing d rs with
  | nil =>
    simp only [Decoder.debugCalls, DebugResult.returns.injEq, Prod.mk.injEq] at h
    obtain ⟨rfl, rfl⟩ := h
    rw [List.nil_append]
    cases d.debugCalls cs2 <;> rfl
  | cons c cs ih =>
    rw [Decoder.debugCalls] at h
    rw [List.cons_append, Decoder.debugCalls]
    cases hc : d.debugCall c with
    | exits x => simp [hc] at h
    | fault f => simp [hc] at h
    | returns q =>
      obtain ⟨r, d1⟩ := q
      simp only [hc] at h ⊢
      cases hd : d1.debugCalls cs with
      | exits x => simp [hd] at h
      | fault f => simp [hd] at h
      | returns q =>
        obtain ⟨rs', d2⟩ := q
        simp only [hd, DebugResult.returns.injEq, Prod.mk.injEq] at h
        obtain ⟨rfl, rfl⟩ := h
        rw [ih hd]
        cases d2.debugCalls cs2 <;> rfl

theorem debugCalls_eq (d : Decoder) (cs : List DecoderCall) :
    (∃ x, d.debugCalls cs = .exits x) ∨ d.debugCalls cs = asRelease (d.calls cs) := by
  induction cs generalizing d with
  | nil => exact Or.inr rfl
  | cons c cs ih =>
    rw [Decoder.debugCalls]
    rcases debugCall_eq d c with ⟨y, h1, h2⟩ | ⟨h1, h2⟩
    · rw [h2]; exact Or.inl ⟨y, rfl⟩
    · rw [h2]
      cases hc : d.call c with
      | error f =>
        right
        simp [Decoder.calls, hc, asRelease]
      | ok q =>
        obtain ⟨r, d1⟩ := q
        simp only [asRelease]
        rcases ih d1 with ⟨x, h3⟩ | h3
        · rw [h3]; exact Or.inl ⟨x, rfl⟩
        · right
          rw [h3, calls_cons hc]
          cases d1.calls cs with
          | error f => rfl
          | ok q => rfl

theorem callSite_misuse {d : Decoder} (h : DecTyped d) {c : DecoderCall} {x : Site} (hx : d.callSite c = some x) :
    misuse d.top.started c = some x ∨
    (∃ data, c = .chunk data ∧ d.top.started = true ∧ x ∈ inputSites ∧ ∃ o d', d.call c = .ok (⟨false, o⟩, d')) := by
  rcases callSite_cases h hx with ⟨dict, rfl, rfl, hs⟩ | ⟨b, rfl, rfl, hs⟩ | ⟨data, rfl, rfl, hs⟩ | h
  · left; simp [misuse, hs]
  · left; simp [misuse, hs]
  · left; simp [misuse, hs]
  · exact Or.inr h

theorem misuse_site {d : Decoder} {c : DecoderCall} {x : Site} (h : misuse d.top.started c = some x) : d.callSite c = some x := by
  cases c with
  | start dict => simpa [misuse, Decoder.callSite] using h
  | setAllowTarget b => simpa [misuse, Decoder.callSite] using h
  | chunk data =>
    simp only [misuse] at h
    split at h
    · simp at h
    · rename_i hs
      rw [callSite_protocol data (by simpa using hs)]
      exact h
  | finish => simp [misuse] at h
  | setMaxFile n => simp [misuse] at h
  | setMaxWin n => simp [misuse] at h

theorem debugCalls_calls {d d' : Decoder} {cs : List DecoderCall} {rs : List DecoderReply}
    (h : d.debugCalls cs = .returns (rs, d')) : d.calls cs = .ok (rs, d') := by
  rcases debugCalls_eq d cs with ⟨x, h1⟩ | h1
  · rw [h1] at h; simp at h
  · rw [h1] at h
    cases hc : d.calls cs with
    | error f => simp [hc, asRelease] at h
    | ok q =>
      simp only [hc, asRelease, DebugResult.returns.injEq] at h
      rw [h]

theorem PlainDec.start {s : Settings} {dict : Bytes} (h1 : dict.length + s.maxWindow < 2147483648)
    (h2 : s.maxFile + s.maxWindow < 2147483648) : PlainDec ((configured s).start dict) [] := by
  have hd : DecTyped (configured s) := ⟨fun h => by simp [configured] at h, default_types, fun h => by simp [configured] at h⟩
  have hd' : DecTyped ((configured s).start dict) := hd.call (c := .start dict) rfl
  refine ⟨hd', rfl, rfl, ?_, fun _ => rfl⟩
  refine ⟨.closed default_types rfl, rfl, fun c hc => ?_, h1, h2, Nat.zero_le _, Nat.le_refl _, fun w hw => ?_⟩
  · exact absurd hc (by simp [configured, Decoder.start, Level.start, Level.reset])
  · exact absurd hw (by simp [configured, Decoder.start, Level.start, Level.reset])

theorem PlainDec.chunks {d : Decoder} {s : Bytes} (h : PlainDec d s) {cs : List Bytes} {rs : List DecoderReply} {d' : Decoder}
    (hc : d.calls (cs.map .chunk) = .ok (rs, d')) (hr : ∀ r ∈ rs, r.ret = true) (hp : ¬ CustomTable (s ++ cs.flatten)) :
    PlainDec d' (s ++ cs.flatten) ∧ d.debugCalls (cs.map .chunk) = .returns (rs, d') := by
  induction cs generalizing d s rs with
  | nil =>
    simp only [List.map_nil, Decoder.calls, Except.ok.injEq, Prod.mk.injEq] at hc
    obtain ⟨rfl, rfl⟩ := hc
    simp only [List.flatten_nil, List.append_nil]
    exact ⟨h, rfl⟩
  | cons c cs ih =>
    rw [List.map_cons] at hc ⊢
    rw [List.flatten_cons, ← List.append_assoc] at hp ⊢
    obtain ⟨r, d1, rs', k1, k2, rfl⟩ := calls_cons_ok hc
    have hrt : r = ⟨true, r.out⟩ := by
      have := hr r (by simp)
      cases r
      simp only at this
      simp only [this]
    obtain ⟨j1, j2⟩ := h.chunk (data := c) (fun hx => hp (CustomTable.append hx _))
    obtain ⟨i1, i2⟩ := ih (j2 r.out d1 (by rw [← hrt]; exact k1)) k2 (fun r hx => hr r (by simp [hx])) hp
    refine ⟨i1, ?_⟩
    rw [Decoder.debugCalls, Decoder.debugCall, j1, k1]
    simp only [i2]

end Vcd
