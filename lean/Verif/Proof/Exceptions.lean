import Verif.Model.Exceptions
import Verif.Proof.OutputString
import Verif.Proof.LifetimeChunk
import Verif.Proof.Leftover

/-!
# What is left after an exception: lemmas for C78
-/

namespace Vcd
open Spec

/-! ## The decoder -/

/-- The loop over windows with an exception, and without. -/
theorem windowLoopThrow_spec (fuel : Nat) (seen : Bool) (L : Level) (s : Bytes) (k : Nat) (hc : L.cache ≠ none) :
    match windowLoopThrow fuel L s k with
    | .thrown L' => k < (opsOf (windowLoopEvents fuel seen L s).1).length ∧ Lifetime.Keeps L L'
    | .ended r k' => r = (windowLoopEvents fuel seen L s).2 ∧ k = (opsOf (windowLoopEvents fuel seen L s).1).length + k' ∧
        ∀ L' rest, r = some (L', rest) → Lifetime.Keeps L L' := by
  induction fuel generalizing seen L s k with
  | zero => exact ⟨rfl, by simp [windowLoopEvents, opsOf], by simp⟩
  | succ fuel ih =>
    unfold windowLoopThrow windowLoopEvents
    by_cases hs : s = []
    · simp only [if_pos hs]
      refine ⟨trivial, by simp [opsOf], fun L' rest h => ?_⟩
      simp only [Option.some.injEq, Prod.mk.injEq] at h
      rw [← h.1]; exact .refl _
    · simp only [if_neg hs]
      have hb : opsOf (if L.win.isNone && !seen && (L.lengthRead s).isSome then [OutEvent.window] else []) = [] := by
        split <;> rfl
      generalize (if L.win.isNone && !seen && (L.lengthRead s).isSome then [OutEvent.window] else []) = begun at hb ⊢
      cases hd : decodeWindow L s with
      | fault f => exact ⟨rfl, by simp [hb], by simp⟩
      | error => exact ⟨rfl, by simp [hb], by simp⟩
      | endOfData L1 r =>
        refine ⟨rfl, by simp [hb], fun L' rest h => ?_⟩
        simp only [Option.some.injEq, Prod.mk.injEq] at h
        rw [← h.1]; exact (Lifetime.decodeWindow_keeps hc (Or.inr hd)).1
      | ok L1 r =>
        obtain ⟨k1, k2⟩ := Lifetime.decodeWindow_keeps hc (Or.inl hd)
        simp only
        by_cases hr : L1.reachedPlanned = true
        · simp only [hr, if_true]
          refine ⟨trivial, by simp [hb], fun L' rest h => ?_⟩
          simp only [Option.some.injEq, Prod.mk.injEq] at h
          rw [← h.1]; exact k1
        · simp only [hr, if_false, Bool.false_eq_true]
          by_cases ha : (!L1.allowTarget) = true
          · simp only [ha, if_true]
            have ho : opsOf (begun ++ OutEvent.op (OutOp.append L1.flush.2) :: (windowLoopEvents fuel false L1.flush.1 r).1) =
                .append L1.flush.2 :: opsOf (windowLoopEvents fuel false L1.flush.1 r).1 := by
              have : opsOf begun = [] := hb
              simp only [opsOf, List.filterMap_append] at this ⊢
              rw [this]; rfl
            rw [ho]
            cases k with
            | zero => exact ⟨by simp, k1⟩
            | succ k =>
              have hf : Lifetime.Keeps L1 L1.flush.1 := ⟨rfl, rfl, rfl, rfl, rfl, rfl⟩
              have h := ih false L1.flush.1 r k k2
              simp only [List.length_cons]
              cases hw : windowLoopThrow fuel L1.flush.1 r k with
              | thrown L' =>
                simp only [hw] at h ⊢
                exact ⟨by omega, k1.trans (hf.trans h.2)⟩
              | ended r' k' =>
                simp only [hw] at h ⊢
                exact ⟨h.1, by omega, fun L' rest e => k1.trans (hf.trans (h.2.2 L' rest e))⟩
          · simp only [ha, if_false, Bool.false_eq_true]
            have h := ih false L1 r k k2
            have ho : opsOf (begun ++ (windowLoopEvents fuel false L1 r).1) = opsOf (windowLoopEvents fuel false L1 r).1 := by
              have : opsOf begun = [] := hb
              simp only [opsOf, List.filterMap_append] at this ⊢
              rw [this]; rfl
            rw [ho]
            cases hw : windowLoopThrow fuel L1 r k with
            | thrown L' =>
              simp only [hw] at h ⊢
              exact ⟨h.1, k1.trans h.2⟩
            | ended r' k' =>
              simp only [hw] at h ⊢
              exact ⟨h.1, h.2.1, fun L' rest e => k1.trans (h.2.2 L' rest e)⟩

theorem opsOf_append (a b : List OutEvent) : opsOf (a ++ b) = opsOf a ++ opsOf b := by simp [opsOf]

/-- Windows with an exception, and without. -/
theorem chunkWindowsThrow_spec (buffer : Bytes) (seen : Bool) (L : Level) (s : Bytes) (k : Nat) (hc : L.cache ≠ none) :
    ((chunkWindowsThrow buffer L s k).isSome = true ↔ k < (opsOf (chunkWindowsEvents seen L s)).length) ∧
    ∀ L', chunkWindowsThrow buffer L s k = some L' → Lifetime.Keeps L L' := by
  have h := windowLoopThrow_spec (s.length + 2) seen L s k hc
  unfold chunkWindowsThrow chunkWindowsEvents
  simp only [opsOf_append, List.length_append]
  cases hw : windowLoopThrow (s.length + 2) L s k with
  | thrown L1 =>
    simp only [hw] at h
    refine ⟨by simp; omega, fun L' e => ?_⟩
    simp only [Option.some.injEq] at e
    rw [← e]
    exact h.2.trans ⟨rfl, rfl, rfl, rfl, rfl, rfl⟩
  | ended r k' =>
    simp only [hw] at h
    obtain ⟨h1, h2, h3⟩ := h
    rw [← h1]
    cases r with
    | none =>
      refine ⟨?_, by simp⟩
      simp only [Option.isSome_none, Bool.false_eq_true, false_iff, show opsOf [] = [] from rfl, List.length_nil]
      omega
    | some p =>
      obtain ⟨L1, rest⟩ := p
      simp only [opsOf_map]
      constructor
      · split <;> simp <;> omega
      · intro L' e
        split at e
        · simp only [Option.some.injEq] at e
          rw [← e]
          exact (h3 _ _ rfl).trans ⟨rfl, rfl, rfl, rfl, rfl, rfl⟩
        · cases e

theorem codeTableThrow_spec (buffer : Bytes) (L n : Level) (ns : List Level) (s : Bytes) (k : Nat) (hc : L.cache ≠ none) :
    ((codeTableThrow buffer L n ns s k).isSome = true ↔ k < (opsOf (codeTableEvents L n ns s)).length) ∧
    ∀ L', codeTableThrow buffer L n ns s k = some L' → ∃ L1 rest, tableStep chunkRun L (n :: ns) s = decodeChunkWindows L1 rest ∧
      Lifetime.Keeps L1 L' ∧ L1.maxFile = L.maxFile ∧ L1.maxWin = L.maxWin ∧ L1.allowTarget = L.allowTarget ∧ L1.cache ≠ none ∧
      L1.started = L.started := by
  unfold codeTableThrow codeTableEvents tableStep
  rw [decodeChunk_eq]
  simp only
  cases chunkRun n ns s with
  | fault f => simp [opsOf]
  | error n' o => simp [opsOf]
  | ok n' ns' text =>
    simp only
    unfold afterCodeTableChunk
    simp only
    split
    · simp [opsOf]
    · split
      · simp [opsOf]
      · split
        · split
          · simp [opsOf]
          · obtain ⟨h1, h2⟩ := chunkWindowsThrow_spec buffer false
              { L with tableString := [], table := if (CodeTable.ofBytes _ (by assumption)).validate ((L.cache.map AddrCache.lastMode).getD 0)
                then CodeTable.ofBytes _ (by assumption) else L.table } (s.drop (s.length - n'.unparsed.length)) k hc
            exact ⟨h1, fun L' e => ⟨_, _, rfl, h2 L' e, rfl, rfl, rfl, hc, rfl⟩⟩
        · simp [opsOf]

/-- What the end of `DecodeChunk` leaves alone. -/
theorem decodeChunkWindows_keeps {L : Level} (hc : L.cache ≠ none) (s : Bytes) :
    (∀ L' ns' o, decodeChunkWindows L s = .ok L' ns' o → Lifetime.Keeps L L') ∧
    (∀ L' o, decodeChunkWindows L s = .error L' o → L'.table = L.table ∧ L'.maxFile = L.maxFile ∧ L'.maxWin = L.maxWin ∧
      L'.allowTarget = L.allowTarget) := by
  have h := loop_erase (s.length + 2) false L s []
  have h' := windowLoopThrow_spec (s.length + 2) false L s (opsOf (windowLoopEvents (s.length + 2) false L s).1).length hc
  unfold decodeChunkWindows
  cases hw : windowLoop (s.length + 2) L s [] with
  | fault f => simp
  | error o =>
    refine ⟨by simp, fun L' o' e => ?_⟩
    simp only [ChunkResult.error.injEq] at e
    rw [← e.1]
    exact ⟨rfl, rfl, rfl, rfl⟩
  | done L1 r o =>
    simp only [hw] at h
    refine ⟨fun L' ns' o' e => ?_, by simp [endChunk]⟩
    cases ht : windowLoopThrow (s.length + 2) L s (opsOf (windowLoopEvents (s.length + 2) false L s).1).length with
    | thrown L2 => simp [ht] at h'
    | ended r' k' =>
      simp only [ht] at h'
      simp only [endChunk_eq, ChunkResult.ok.injEq] at e
      rw [← e.1]
      exact (h'.2.2 _ _ (h'.1.trans h.1)).trans ⟨rfl, rfl, rfl, rfl, rfl, rfl⟩

theorem decodeChunkWindows_config {L L' : Level} {s : Bytes} (hc : L.cache ≠ none) (hk : Lifetime.Keeps L L') {ns : List Level} {r : ChunkResult}
    (hr : r = decodeChunkWindows L s) :
    (∀ L1 ns' o, r = .ok L1 ns' o → Decoder.settings ⟨L', ns⟩ = Decoder.settings ⟨L1, ns'⟩ ∧ L'.table = L1.table) ∧
    (∀ L1 o, r = .error L1 o → Decoder.settings ⟨L', ns⟩ = Decoder.settings ⟨L1, []⟩ ∧ L'.table = L1.table) := by
  obtain ⟨h1, h2⟩ := decodeChunkWindows_keeps hc s
  rw [hr]
  constructor
  · intro L1 ns' o e
    have k := h1 _ _ _ e
    exact ⟨by simp only [Decoder.settings, hk.maxFile, hk.maxWin, hk.allowTarget, k.maxFile, k.maxWin, k.allowTarget],
      hk.table.trans k.table.symm⟩
  · intro L1 o e
    obtain ⟨k1, k2, k3, k4⟩ := h2 _ _ e
    exact ⟨by simp only [Decoder.settings, hk.maxFile, hk.maxWin, hk.allowTarget, k2, k3, k4], hk.table.trans k1.symm⟩

/-- An exception leaves the settings and the code table that the call without an exception leaves. -/
theorem Decoder.chunkThrow_spec {d : Decoder} (hd : DecInv d) (data : Bytes) (k : Nat) :
    ((d.chunkThrow data k).isSome = true ↔ k < (d.chunkOps data).length) ∧
    ∀ d', d.chunkThrow data k = some d' → d'.settings = d.settings ∧ d'.top.started = true ∧
      ∀ r d1, d.call (.chunk data) = .ok (r, d1) → d'.settings = d1.settings ∧ d'.top.table = d1.top.table := by
  have he : d.chunkOps data = opsOf (d.chunkEvents data) := rfl
  rw [he]
  simp only [Decoder.call, decodeChunk_eq, chunkRun_eq]
  obtain ⟨L, ns⟩ := d
  unfold Decoder.chunkThrow Decoder.chunkEvents chunkStep
  dsimp only
  by_cases hs : L.started = false
  · have hs' : (!L.started) = true := by rw [hs]; rfl
    rw [if_pos hs', if_pos hs, if_pos hs']
    simp [opsOf]
  · have hs' : ¬ (!L.started) = true := by simpa using hs
    rw [if_neg hs', if_neg hs, if_neg hs']
    have hst : L.started = true := by simpa using hs
    -- the members from which the windows are decoded
    have key : ∀ {L0 L' : Level} {rest : Bytes} {x : ChunkResult} (f : ChunkResult → Except Fault (DecoderReply × Decoder)),
        f = (fun x => match x with
          | .ok L nested out => .ok (⟨true, out⟩, { top := L, nested := nested })
          | .error L out => .ok (⟨false, out⟩, { top := L, nested := [] })
          | .fault f => .error f) →
        L0.cache ≠ none → Lifetime.Keeps L0 L' → x = decodeChunkWindows L0 rest →
        ∀ r d1, f x = .ok (r, d1) → Decoder.settings ⟨L', []⟩ = d1.settings ∧ L'.table = d1.top.table := by
      intro L0 L' rest x f hf h1 h2 h3 r d1 e
      obtain ⟨c1, c2⟩ := decodeChunkWindows_config (ns := []) h1 h2 h3
      subst hf
      cases x with
      | fault f => cases e
      | ok L1 ns1 o =>
        simp only [Except.ok.injEq, Prod.mk.injEq] at e
        rw [← e.2]
        exact c1 _ _ _ rfl
      | error L1 o =>
        simp only [Except.ok.injEq, Prod.mk.injEq] at e
        rw [← e.2]
        exact c2 _ _ rfl
    have hset : ∀ {L0 L' : Level}, Lifetime.Keeps L0 L' → L0.maxFile = L.maxFile → L0.maxWin = L.maxWin → L0.allowTarget = L.allowTarget →
        Decoder.settings ⟨L', []⟩ = Decoder.settings ⟨L, ns⟩ := by
      intro L0 L' hk h1 h2 h3
      simp only [Decoder.settings, hk.maxFile, hk.maxWin, hk.allowTarget, h1, h2, h3]
    cases hc : L.cache with
    | some c =>
      have hc' : L.cache ≠ none := by rw [hc]; simp
      cases ns with
      | nil =>
        obtain ⟨h1, h2⟩ := chunkWindowsThrow_spec (if L.unparsed = [] then [] else L.unparsed ++ data)
          (L.lengthRead L.unparsed).isSome L (L.unparsed ++ data) k hc'
        refine ⟨by simpa using h1, fun d' e => ?_⟩
        simp only [Option.map_eq_some_iff] at e
        obtain ⟨L', e1, rfl⟩ := e
        have hk := h2 _ e1
        exact ⟨hset hk rfl rfl rfl, hk.started.trans hst, key _ rfl hc' hk rfl⟩
      | cons n ns =>
        obtain ⟨h1, h2⟩ := codeTableThrow_spec (if L.unparsed = [] then [] else L.unparsed ++ data) L n ns (L.unparsed ++ data) k hc'
        refine ⟨by simpa using h1, fun d' e => ?_⟩
        simp only [Option.map_eq_some_iff] at e
        obtain ⟨L', e1, rfl⟩ := e
        obtain ⟨L1, rest, g1, g2, g3, g4, g5, g6, g7⟩ := h2 _ e1
        exact ⟨hset g2 g3 g4 g5, g2.started.trans (g7.trans hst), key _ rfl g6 g2 g1⟩
    | none =>
      cases hr : readFileHeader (L.unparsed ++ data) with
      | error => simp [opsOf]
      | endOfData => simp [opsOf]
      | ok hdr rest =>
        obtain ⟨v, cs⟩ := hdr
        cases cs with
        | none =>
          obtain ⟨h1, h2⟩ := chunkWindowsThrow_spec (if L.unparsed = [] then [] else L.unparsed ++ data) false
            { L with version := v, cache := some AddrCache.newDefault } rest k (by simp)
          refine ⟨by simpa using h1, fun d' e => ?_⟩
          simp only [Option.map_eq_some_iff] at e
          obtain ⟨L', e1, rfl⟩ := e
          have hk := h2 _ e1
          refine ⟨hset hk rfl rfl rfl, hk.started.trans hst, ?_⟩
          have hns : ns = [] := (hd hst).1.none hc
          subst hns
          exact key _ rfl (by simp) hk rfl
        | some p =>
          obtain ⟨near, same⟩ := p
          obtain ⟨h1, h2⟩ := codeTableThrow_spec (if L.unparsed = [] then [] else L.unparsed ++ data)
            { L with version := v, cache := some (AddrCache.new near same), tableString := [] } Level.forCodeTable [] rest k (by simp)
          refine ⟨by simpa using h1, fun d' e => ?_⟩
          simp only [Option.map_eq_some_iff] at e
          obtain ⟨L', e1, rfl⟩ := e
          obtain ⟨L1, rest', g1, g2, g3, g4, g5, g6, g7⟩ := h2 _ e1
          exact ⟨hset g2 g3 g4 g5, g2.started.trans (g7.trans hst), key _ rfl g6 g2 g1⟩

end Vcd
