import Verif.Proof.Exceptions
import Verif.Proof.Reuse

/-!
# Decoding goes on after an exception: lemmas for C83
-/

namespace Vcd
open Spec

/-- With target windows allowed there is no output within the loop over windows. -/
theorem windowLoopThrow_target (fuel : Nat) (seen : Bool) (L : Level) (s : Bytes) (k : Nat) (hc : L.cache ≠ none) (ha : L.allowTarget = true) :
    windowLoopThrow fuel L s k = .ended (windowLoopEvents fuel seen L s).2 k ∧ opsOf (windowLoopEvents fuel seen L s).1 = [] ∧
      ∀ L' rest, (windowLoopEvents fuel seen L s).2 = some (L', rest) → L'.cache ≠ none ∧ L'.started = L.started := by
  induction fuel generalizing seen L s with
  | zero => simp [windowLoopThrow, windowLoopEvents, opsOf]
  | succ fuel ih =>
    unfold windowLoopThrow windowLoopEvents
    by_cases hs : s = []
    · simp only [if_pos hs]
      refine ⟨by trivial, rfl, fun L' rest h => ?_⟩
      simp only [Option.some.injEq, Prod.mk.injEq] at h
      rw [← h.1]; exact ⟨hc, rfl⟩
    · simp only [if_neg hs]
      have hb : opsOf (if L.win.isNone && !seen && (L.lengthRead s).isSome then [OutEvent.window] else []) = [] := by
        split <;> rfl
      generalize (if L.win.isNone && !seen && (L.lengthRead s).isSome then [OutEvent.window] else []) = begun at hb ⊢
      cases hd : decodeWindow L s with
      | fault f => exact ⟨rfl, hb, by simp⟩
      | error => exact ⟨rfl, hb, by simp⟩
      | endOfData L1 r =>
        obtain ⟨k1, k2⟩ := Lifetime.decodeWindow_keeps hc (Or.inr hd)
        refine ⟨rfl, hb, fun L' rest h => ?_⟩
        simp only [Option.some.injEq, Prod.mk.injEq] at h
        rw [← h.1]; exact ⟨k2, k1.started⟩
      | ok L1 r =>
        obtain ⟨k1, k2⟩ := Lifetime.decodeWindow_keeps hc (Or.inl hd)
        have ha1 : L1.allowTarget = true := k1.allowTarget.trans ha
        simp only
        by_cases hr : L1.reachedPlanned = true
        · simp only [hr, if_true]
          refine ⟨trivial, hb, fun L' rest h => ?_⟩
          simp only [Option.some.injEq, Prod.mk.injEq] at h
          rw [← h.1]; exact ⟨k2, k1.started⟩
        · simp only [hr, if_false, Bool.false_eq_true, ha1, Bool.not_true]
          obtain ⟨i1, i2, i3⟩ := ih false L1 r k2 ha1
          refine ⟨i1, ?_, fun L' rest h => ⟨(i3 L' rest h).1, (i3 L' rest h).2.trans k1.started⟩⟩
          simp only [opsOf, List.filterMap_append, List.append_eq_nil_iff] at hb i2 ⊢
          exact ⟨hb, i2⟩

/-- What the windows of a call would leave, and what an exception leaves. -/
def SameButOutput (L' : Level) (x : ChunkResult) : Prop :=
  ∃ (L1 : Level) (r : Bytes), L' = L1.setUnparsed r ∧ L1.cache ≠ none ∧ L1.started = true ∧ L1.outPos < L1.decoded.length ∧ x = .ok (L1.ended r) [] L1.text

theorem chunkWindowsThrow_target {buffer : Bytes} {L L' : Level} {s : Bytes} {k : Nat} (hc : L.cache ≠ none) (ha : L.allowTarget = true)
    (hst : L.started = true) (h : chunkWindowsThrow buffer L s k = some L') : SameButOutput L' (decodeChunkWindows L s) := by
  obtain ⟨h1, h2, h3⟩ := windowLoopThrow_target (s.length + 2) false L s k hc ha
  have he := loop_erase (s.length + 2) false L s []
  unfold chunkWindowsThrow at h
  rw [h1] at h
  rw [decodeChunkWindows_eq]
  unfold winRun
  cases hw : windowLoop (s.length + 2) L s [] with
  | fault f => simp only [hw] at he; simp [he] at h
  | error o => simp only [hw] at he; simp [he.1] at h
  | done L1 r o =>
    simp only [hw] at he
    obtain ⟨e1, e2⟩ := he
    rw [e1] at h h3
    obtain ⟨g1, g2⟩ := h3 L1 r rfl
    have ho : o = [] := by rw [e2]; simp [textOf, h2, appendedBy]
    subst ho
    simp only at h
    split at h
    · rename_i hk
      simp only [Option.some.injEq] at h
      refine ⟨L1, r, h.symm, g1, g2.trans hst, ?_, rfl⟩
      by_cases hl : L1.outPos < L1.decoded.length
      · exact hl
      · have : ¬ (L1.decoded.drop L1.outPos).length > 0 := by rw [List.length_drop]; omega
        unfold Level.appendNewOps at hk
        simp only [if_neg this, List.length_nil] at hk
        omega
    · cases h

theorem codeTableThrow_target {buffer : Bytes} {L n L' : Level} {ns : List Level} {s : Bytes} {k : Nat} (hc : L.cache ≠ none)
    (ha : L.allowTarget = true) (hst : L.started = true) (h : codeTableThrow buffer L n ns s k = some L') :
    SameButOutput L' (tableStep chunkRun L (n :: ns) s) := by
  unfold codeTableThrow at h
  unfold tableStep
  rw [decodeChunk_eq] at h
  simp only at h
  cases hx : chunkRun n ns s with
  | fault f => simp [hx] at h
  | error n' o => simp [hx] at h
  | ok n' ns' text =>
    simp only [hx] at h ⊢
    unfold afterCodeTableChunk
    simp only
    split at h
    · cases h
    · rename_i h1
      rw [if_neg h1]
      split at h
      · cases h
      · rename_i h2
        rw [if_neg h2]
        split at h
        · rename_i h3
          rw [dif_pos h3]
          split at h
          · cases h
          · rename_i h4
            rw [if_neg h4]
            exact chunkWindowsThrow_target (by exact hc) (by exact ha) (by exact hst) h
        · cases h

/-- With target windows allowed, an exception from the output string leaves the decoder as the call without it would, but for the text that
has not been output. -/
theorem Decoder.chunkThrow_target {d d' : Decoder} (hd : d.top.cache = none → d.nested = []) (ha : d.top.allowTarget = true) {data : Bytes} {k : Nat}
    (h : d.chunkThrow data k = some d') :
    ∃ (L1 : Level) (r : Bytes), d' = ⟨L1.setUnparsed r, []⟩ ∧ L1.cache ≠ none ∧ L1.started = true ∧ L1.outPos < L1.decoded.length ∧
      d.call (.chunk data) = .ok (⟨true, L1.text⟩, ⟨L1.ended r, []⟩) := by
  obtain ⟨L, ns⟩ := d
  simp only [Decoder.call, decodeChunk_eq, chunkRun_eq]
  unfold Decoder.chunkThrow at h
  unfold chunkStep
  dsimp only at h ha ⊢
  by_cases hs : L.started = false
  · have hs' : (!L.started) = true := by rw [hs]; rfl
    rw [if_pos hs'] at h
    cases h
  · have hs' : ¬ (!L.started) = true := by simpa using hs
    rw [if_neg hs'] at h
    rw [if_neg hs]
    have hst : L.started = true := by simpa using hs
    have fin : ∀ {L' : Level} {x : ChunkResult}, SameButOutput L' x →
        ∃ (L1 : Level) (r : Bytes), (⟨L', []⟩ : Decoder) = ⟨L1.setUnparsed r, []⟩ ∧ L1.cache ≠ none ∧ L1.started = true ∧ L1.outPos < L1.decoded.length ∧
          x = .ok (L1.ended r) [] L1.text := by
      rintro L' x ⟨L1, r, e, g⟩
      exact ⟨L1, r, by rw [e], g⟩
    simp only [Option.map_eq_some_iff] at h
    obtain ⟨L', h, rfl⟩ := h
    cases hc : L.cache with
    | some c =>
      simp only [hc] at h
      have hc' : L.cache ≠ none := by rw [hc]; simp
      cases ns with
      | nil =>
        obtain ⟨L1, r, g1, g2, g3, g4, g5⟩ := fin (chunkWindowsThrow_target hc' ha hst h)
        exact ⟨L1, r, g1, g2, g3, g4, by simp only [tableStep, g5]⟩
      | cons n ns =>
        obtain ⟨L1, r, g1, g2, g3, g4, g5⟩ := fin (codeTableThrow_target hc' ha hst h)
        exact ⟨L1, r, g1, g2, g3, g4, by simp only [g5]⟩
    | none =>
      simp only [hc] at h
      have hns : ns = [] := hd hc
      subst hns
      cases hr : readFileHeader (L.unparsed ++ data) with
      | error => simp [hr] at h
      | endOfData => simp [hr] at h
      | ok hdr rest =>
        obtain ⟨v, cs⟩ := hdr
        simp only [hr] at h
        cases cs with
        | none =>
          obtain ⟨L1, r, g1, g2, g3, g4, g5⟩ := fin (chunkWindowsThrow_target (L := { L with version := v, cache := some AddrCache.newDefault })
            (by simp) ha hst h)
          exact ⟨L1, r, g1, g2, g3, g4, by simp only [Level.withHeader, nestedFor, tableStep, g5]⟩
        | some p =>
          obtain ⟨near, same⟩ := p
          obtain ⟨L1, r, g1, g2, g3, g4, g5⟩ := fin (codeTableThrow_target
            (L := { L with version := v, cache := some (AddrCache.new near same), tableString := [] }) (by simp) ha hst h)
          exact ⟨L1, r, g1, g2, g3, g4, by simp only [Level.withHeader, nestedFor, g5]⟩

/-! ### The operations on the output string -/

/-- At most one append, and at most one reservation before it. -/
inductive OneAppend : List OutOp → Prop
  | none : OneAppend []
  | append (bytes : Bytes) : OneAppend [.append bytes]
  | reserve (n : Nat) (bytes : Bytes) : OneAppend [.reserve n, .append bytes]

theorem chunkWindowsEvents_target (seen : Bool) {L : Level} (s : Bytes) (hc : L.cache ≠ none) (ha : L.allowTarget = true) :
    OneAppend (opsOf (chunkWindowsEvents seen L s)) := by
  obtain ⟨_, h2, _⟩ := windowLoopThrow_target (s.length + 2) seen L s 0 hc ha
  unfold chunkWindowsEvents
  have : ∀ a b, opsOf (a ++ b) = opsOf a ++ opsOf b := fun a b => List.filterMap_append ..
  simp only [this, h2, List.nil_append]
  cases (windowLoopEvents (s.length + 2) seen L s).2 with
  | none => exact .none
  | some p =>
    simp only
    unfold Level.appendNewOps
    dsimp only
    split
    · split
      · exact .reserve _ _
      · exact .append _
    · exact .none

theorem codeTableEvents_target {L n : Level} {ns : List Level} (s : Bytes) (hc : L.cache ≠ none) (ha : L.allowTarget = true) :
    OneAppend (opsOf (codeTableEvents L n ns s)) := by
  unfold codeTableEvents
  split
  · dsimp only
    split
    · exact .none
    · split
      · exact .none
      · split
        · split
          · exact .none
          · exact chunkWindowsEvents_target _ _ (by exact hc) (by exact ha)
        · exact .none
  · exact .none

/-- With target windows allowed, `DecodeChunk` reserves and appends at most once. -/
theorem Decoder.chunkOps_target {d : Decoder} (ha : d.top.allowTarget = true) (data : Bytes) :
    OneAppend (d.chunkOps data) := by
  have he : d.chunkOps data = opsOf (d.chunkEvents data) := rfl
  rw [he]
  unfold Decoder.chunkEvents
  dsimp only
  split
  · exact .none
  · split
    · rename_i hc
      have hc' : d.top.cache ≠ none := by rw [hc]; simp
      split
      · exact chunkWindowsEvents_target _ _ hc' ha
      · exact codeTableEvents_target _ hc' ha
    · split
      · split
        · exact chunkWindowsEvents_target _ _ (by simp) (by exact ha)
        · exact codeTableEvents_target _ (by simp) (by exact ha)
      · exact .none

/-- With target windows allowed, nothing has been output when an operation throws, unless the string has taken a part of the append. -/
theorem Decoder.nothing_before {d : Decoder} (ha : d.top.allowTarget = true) (data : Bytes) {k : Nat} (hk : k < (d.chunkOps data).length) :
    appendedBefore (d.chunkOps data) k 0 = [] := by
  have h := Decoder.chunkOps_target ha data
  generalize d.chunkOps data = ops at h hk ⊢
  cases h with
  | none => simp at hk
  | append bytes =>
    have : k = 0 := by simp at hk; omega
    subst this
    simp [appendedBefore]
  | reserve n bytes =>
    have : k = 0 ∨ k = 1 := by simp at hk; omega
    rcases this with rfl | rfl <;> simp [appendedBefore]

/-! ### A decoder that has not output everything -/

/-- `d'` is `d`, but has yet to output the text `x`. -/
inductive Behind : Bytes → Decoder → Decoder → Prop
  | same {d : Decoder} (hd : DecInv d) (ha : d.top.allowTarget = true) : Behind [] d d
  | behind {L : Level} (hd : DecInv ⟨L.setOut L.decoded.length, []⟩) (ha : L.allowTarget = true) (hc : L.cache ≠ none)
      (hs : L.started = true) (ho : L.outPos ≤ L.decoded.length) : Behind L.text ⟨L, []⟩ ⟨L.setOut L.decoded.length, []⟩

theorem Behind.inv {x : Bytes} {d' d : Decoder} (h : Behind x d' d) : DecInv d ∧ d.top.allowTarget = true ∧ d'.top.allowTarget = true ∧
    (d'.top.started = true → d'.top.cache = none → d'.nested = []) := by
  cases h with
  | same hd ha => exact ⟨hd, ha, ha, fun hs hc => (hd hs).1.none hc⟩
  | behind hd ha hc hs ho => exact ⟨hd, ha, ha, fun _ _ => rfl⟩

/-- The next call first outputs what is missing. -/
theorem Behind.call {x : Bytes} {d' d d2 : Decoder} (h : Behind x d' d) {data : Bytes} {r : DecoderReply}
    (hr : d.call (.chunk data) = .ok (r, d2)) :
    ∃ out, d'.call (.chunk data) = .ok (⟨r.ret, out⟩, d2) ∧ out <+: x ++ r.out ∧ (r.ret = true → out = x ++ r.out) := by
  cases h with
  | same => exact ⟨r.out, hr, List.prefix_refl _, fun _ => rfl⟩
  | @behind L hd ha hc hs ho =>
    have hn : NodeInv (L.setOut L.decoded.length) := (hd hs).1.node
    have hL : LevelInv L := hn.inv.setOut L.outPos
    have e1 : chunkRun (L.setOut L.decoded.length) [] data = decodeChunkWindows (L.setOut L.decoded.length) (L.unparsed ++ data) :=
      chunkRun_windows hn hc data
    have e2 : chunkRun L [] data = decodeChunkWindows L (L.unparsed ++ data) := by
      rw [chunkRun_eq, chunkStep, if_neg (by rw [hs]; simp)]
      cases hx : L.cache with
      | none => exact absurd hx hc
      | some c => rfl
    have hrel := winRun_setOut hL ho (Nat.le_refl _) (L.unparsed ++ data)
    rw [← List.length_drop, List.take_length] at hrel
    change OutRel L.text _ _ at hrel
    simp only [Decoder.call, decodeChunk_eq] at hr ⊢
    rw [e1, decodeChunkWindows_eq] at hr
    rw [e2, decodeChunkWindows_eq]
    generalize winRun L (L.unparsed ++ data) = X at hrel ⊢
    generalize winRun (L.setOut L.decoded.length) (L.unparsed ++ data) = Y at hrel hr
    cases hrel with
    | fault f => simp at hr
    | error ho =>
      simp only [Except.ok.injEq, Prod.mk.injEq] at hr ⊢
      obtain ⟨rfl, rfl⟩ := hr
      exact ⟨_, ⟨rfl, rfl⟩, ho, by simp⟩
    | done ho =>
      simp only [Except.ok.injEq, Prod.mk.injEq] at hr ⊢
      obtain ⟨rfl, rfl⟩ := hr
      rw [List.append_assoc] at ho
      exact ⟨_, ⟨rfl, rfl⟩, by rw [ho]; exact List.prefix_refl _, fun _ => ho⟩

/-- A call that is interrupted leaves the decoder behind by what the call would have output. -/
theorem Behind.throw {x : Bytes} {d' d'' d d2 : Decoder} (h : Behind x d' d) {data : Bytes} {r : DecoderReply}
    (hr : d.call (.chunk data) = .ok (r, d2)) {k : Nat} (ht : d'.chunkThrow data k = some d'') :
    r.ret = true ∧ Behind (x ++ r.out) d'' d2 ∧ appendedBefore (d'.chunkOps data) k 0 = [] := by
  obtain ⟨hd, ha, ha', hn⟩ := h.inv
  have hst : d'.top.started = true := by
    cases hx : d'.top.started with
    | true => rfl
    | false => simp [Decoder.chunkThrow, hx] at ht
  obtain ⟨L1, rest, rfl, g2, g3, g4, g5⟩ := Decoder.chunkThrow_target (hn hst) ha' ht
  obtain ⟨out, c1, _, c2⟩ := h.call hr
  rw [g5] at c1
  simp only [Except.ok.injEq, Prod.mk.injEq, DecoderReply.mk.injEq] at c1
  obtain ⟨⟨c3, rfl⟩, rfl⟩ := c1
  have hd2 := hd.call hr
  refine ⟨c3.symm, ?_, ?_⟩
  · rw [← c2 c3.symm]
    have hset := settings_call hd (fun b hb => by cases hb) hr
    have ha2 : L1.allowTarget = true := by
      have := congrArg Settings.allowTarget hset
      exact this.trans ha
    exact .behind (L := L1.setUnparsed rest) hd2 ha2 g2 g3 (Nat.le_of_lt g4)
  · refine Decoder.nothing_before ha' data ?_
    have hk : k < (opsOf (d'.chunkEvents data)).length := by
      cases h with
      | same => exact (Decoder.chunkThrow_spec hd data k).1.1 (by rw [ht]; rfl)
      | @behind L hd ha hc hs ho =>
        obtain ⟨s1, _⟩ := chunkWindowsThrow_spec (if L.unparsed = [] then [] else L.unparsed ++ data)
          (L.lengthRead L.unparsed).isSome L (L.unparsed ++ data) k hc
        unfold Decoder.chunkThrow at ht
        unfold Decoder.chunkEvents
        simp only [hs, Bool.not_true, Bool.false_eq_true, if_false] at ht ⊢
        cases hx : L.cache with
        | none => exact absurd hx hc
        | some c =>
          simp only [hx, Option.map_eq_some_iff] at ht ⊢
          obtain ⟨L', e, _⟩ := ht
          exact s1.1 (by rw [e]; rfl)
    exact hk

end Vcd
