import Verif.Spec.Undefined
import Verif.Proof.LogCalls
import Verif.Proof.OutputString
import Verif.Proof.Machine

/-!
# Window headers that are read alike
-/

namespace Vcd
open Spec

/-- Bytes from which, whatever follows, the same window header is read in files of the format `v`. -/
def Twin (v : UInt8) (s s' : Bytes) : Prop :=
  s ≠ [] ∧ s' ≠ [] ∧ s.length = s'.length ∧ ∀ (L : Level) t, L.version = v → readHeader L (s ++ t) = readHeader L (s' ++ t)

theorem Twin.append {v : UInt8} {s s' : Bytes} (h : Twin v s s') (t : Bytes) : Twin v (s ++ t) (s' ++ t) := by
  obtain ⟨h1, h2, h3, h4⟩ := h
  refine ⟨by simp [h1], by simp [h2], by simp only [List.length_append, h3], fun L r hv => ?_⟩
  rw [List.append_assoc, List.append_assoc]
  exact h4 L (t ++ r) hv

theorem Twin.decodeWindow {s s' : Bytes} {L : Level} (h : Twin L.version s s') (hw : L.win = none) :
    decodeWindow L s = decodeWindow L s' ∨ (decodeWindow L s = .endOfData L s ∧ decodeWindow L s' = .endOfData L s') := by
  have := h.2.2.2 L [] rfl
  rw [List.append_nil, List.append_nil] at this
  unfold Vcd.decodeWindow
  rw [hw, this]
  dsimp only
  cases readHeader L s' with
  | endOfData => exact .inr ⟨rfl, rfl⟩
  | error => exact .inl rfl
  | ok hdr rest => exact .inl rfl

theorem Twin.windows {s s' : Bytes} {L : Level} (h : Twin L.version s s') (hw : L.win = none) :
    decodeChunkWindows L s = decodeChunkWindows L s' ∨
      (decodeChunkWindows L s = endChunk L [] s [] ∧ decodeChunkWindows L s' = endChunk L [] s' []) := by
  have e : ∀ t, windowLoop (t + 2) L s [] = windowLoop (t + 2) L s' [] ∨
      (windowLoop (t + 2) L s [] = .done L s [] ∧ windowLoop (t + 2) L s' [] = .done L s' []) := by
    intro t
    rw [windowLoop, windowLoop, if_neg h.1, if_neg h.2.1]
    rcases h.decodeWindow hw with e | ⟨e1, e2⟩
    · rw [e]; exact .inl rfl
    · rw [e1, e2]; exact .inr ⟨rfl, rfl⟩
  unfold decodeChunkWindows
  rw [h.2.2.1]
  rcases e s'.length with e | ⟨e1, e2⟩
  · rw [e]; exact .inl rfl
  · rw [e1, e2]; exact .inr ⟨rfl, rfl⟩

/-- A decoder that has seen part of a window header, or none of it. -/
structure InHeader (d : Decoder) : Prop where
  started : d.top.started = true
  cache : d.top.cache ≠ none
  win : d.top.win = none
  planned : d.top.planned = none
  leaf : d.nested = []

/-- The same decoder with other bytes it has not parsed. -/
def Decoder.withUnparsed (d : Decoder) (u : Bytes) : Decoder := { d with top := { d.top with unparsed := u } }

/-- The same for the file header. -/
def FileTwin (s s' : Bytes) : Prop :=
  s ≠ [] ∧ s' ≠ [] ∧ ∀ t, readFileHeader (s ++ t) = readFileHeader (s' ++ t)

theorem FileTwin.append {s s' : Bytes} (h : FileTwin s s') (t : Bytes) : FileTwin (s ++ t) (s' ++ t) := by
  obtain ⟨h1, h2, h3⟩ := h
  refine ⟨by simp [h1], by simp [h2], fun r => ?_⟩
  rw [List.append_assoc, List.append_assoc]
  exact h3 (t ++ r)

/-- A decoder that has seen `u` of the file header. -/
structure InFileHeader (d : Decoder) (u : Bytes) : Prop where
  started : d.top.started = true
  cache : d.top.cache = none
  leaf : d.nested = []
  unparsed : d.top.unparsed = u

theorem afterCodeTableChunk_setUnparsed (L : Level) (u : Bytes) (n : Level) (ns : List Level) (s text : Bytes) :
    afterCodeTableChunk (L.setUnparsed u) n ns s text = afterCodeTableChunk L n ns s text := by
  unfold afterCodeTableChunk
  dsimp only
  by_cases h1 : (L.tableString ++ text).length < codeTableSize
  · rw [if_pos h1, if_pos (show ((L.setUnparsed u).tableString ++ text).length < codeTableSize from h1)]; rfl
  · rw [if_neg h1, if_neg (show ¬ ((L.setUnparsed u).tableString ++ text).length < codeTableSize from h1)]
    by_cases h2 : (!n.isComplete (!ns.isEmpty)) = true
    · rw [if_pos h2, if_pos h2]; rfl
    · rw [if_neg h2, if_neg h2]
      by_cases h3 : (L.tableString ++ text).length = codeTableSize
      · rw [dif_pos h3, dif_pos (show ((L.setUnparsed u).tableString ++ text).length = codeTableSize from h3)]
        by_cases h4 : n.unparsed.length > s.length
        · rw [if_pos h4, if_pos h4]
        · rw [if_neg h4, if_neg h4]
          exact decodeChunkWindows_setUnparsed { L with
            tableString := []
            table :=
              if (CodeTable.ofBytes (L.tableString ++ text) h3).validate ((L.cache.map AddrCache.lastMode).getD 0) then
                CodeTable.ofBytes (L.tableString ++ text) h3
              else L.table } u _
      · rw [dif_neg h3, dif_neg (show ¬ ((L.setUnparsed u).tableString ++ text).length = codeTableSize from h3)]; rfl

theorem tableStep_setUnparsed (rec : Level → List Level → Bytes → ChunkResult) (L : Level) (u : Bytes) (ns : List Level) (s : Bytes) :
    tableStep rec (L.setUnparsed u) ns s = tableStep rec L ns s := by
  cases ns with
  | nil => exact decodeChunkWindows_setUnparsed L u s
  | cons n ns =>
    simp only [tableStep]
    cases rec n ns s with
    | fault f => rfl
    | error L' o => rfl
    | ok n' ns' text => exact afterCodeTableChunk_setUnparsed L u n' ns' s text

theorem withHeader_setUnparsed (L : Level) (u : Bytes) (hdr : FileHeader) : (L.setUnparsed u).withHeader hdr = (L.withHeader hdr).setUnparsed u := by
  obtain ⟨v, c⟩ := hdr
  cases c <;> rfl

/-- Chunks for decoders that differ in the bytes of the file header. -/
theorem chunkRun_fileTwin {L : Level} {u u' data data' : Bytes} (hs : L.started = true) (hc : L.cache = none)
    (e : readFileHeader (u ++ data) = readFileHeader (u' ++ data')) :
    chunkRun (L.setUnparsed u) [] data = chunkRun (L.setUnparsed u') [] data' ∨
      (chunkRun (L.setUnparsed u) [] data = endChunk L [] (u ++ data) [] ∧
        chunkRun (L.setUnparsed u') [] data' = endChunk L [] (u' ++ data') []) := by
  have key : ∀ v x : Bytes, chunkRun (L.setUnparsed v) [] x = match readFileHeader (v ++ x) with
      | .error => failed L
      | .endOfData => endChunk L [] (v ++ x) []
      | .ok hdr rest => tableStep chunkRun (L.withHeader hdr) (nestedFor hdr []) rest := by
    intro v x
    rw [chunkRun_eq, chunkStep, if_neg (by show ¬ L.started = false; simp [hs])]
    have h1 : (L.setUnparsed v).cache = none := hc
    have h2 : (L.setUnparsed v).unparsed = v := rfl
    simp only [h1, h2]
    cases readFileHeader (v ++ x) with
    | error => rfl
    | endOfData => rfl
    | ok hdr rest =>
      simp only [withHeader_setUnparsed, tableStep_setUnparsed]
  rw [key, key, e]
  cases readFileHeader (u' ++ data') with
  | error => exact .inl rfl
  | endOfData => exact .inr ⟨rfl, rfl⟩
  | ok hdr rest => exact .inl rfl

/-- Decoders that differ, if at all, in the bytes of a header. -/
inductive Alike : Decoder → Decoder → Prop
  | same (d : Decoder) : Alike d d
  | header {d : Decoder} {u : Bytes} (h : InHeader d) (t : Twin d.top.version d.top.unparsed u) : Alike d (d.withUnparsed u)
  | file {d : Decoder} {v u : Bytes} (h : InFileHeader d v) (t : FileTwin v u) : Alike d (d.withUnparsed u)
  | stopped {d : Decoder} (u : Bytes) (h : d.top.started = false) : Alike d (d.withUnparsed u)

theorem InHeader.decodeChunk {d : Decoder} (h : InHeader d) (data : Bytes) :
    d.decodeChunk data = decodeChunkWindows d.top (d.top.unparsed ++ data) := by
  unfold Decoder.decodeChunk
  obtain ⟨n, hn⟩ : ∃ n, d.depthBound data = n + 1 := ⟨_, rfl⟩
  obtain ⟨c, hc⟩ := Option.ne_none_iff_exists'.1 h.cache
  rw [hn, decodeChunkFuel, h.leaf]
  simp [h.started, hc]

/-- One call: the same reply, and the decoders stay alike. -/
theorem Alike.call {d d' : Decoder} (h : Alike d d') (c : DecoderCall) :
    (∃ f, d.call c = .error f ∧ d'.call c = .error f) ∨
      ∃ r e e', d.call c = .ok (r, e) ∧ d'.call c = .ok (r, e') ∧ Alike e e' := by
  cases h with
  | same =>
    cases hc : d.call c with
    | error f => exact .inl ⟨f, rfl, rfl⟩
    | ok x => exact .inr ⟨x.1, x.2, x.2, rfl, rfl, .same _⟩
  | stopped u h =>
    right
    cases c with
    | start dict =>
      refine ⟨_, _, _, rfl, rfl, ?_⟩
      have : (d.withUnparsed u).start dict = d.start dict := by
        simp [Decoder.start, Decoder.withUnparsed, Level.start, h, Level.reset]
      rw [this]
      exact .same _
    | chunk data =>
      have hd : ∀ e : Decoder, e.top.started = false → e.decodeChunk data = .error e.top.reset [] := by
        intro e he
        unfold Decoder.decodeChunk
        obtain ⟨n, hn⟩ : ∃ n, e.depthBound data = n + 1 := ⟨_, rfl⟩
        rw [hn, decodeChunkFuel]
        simp [he]
      refine ⟨⟨false, []⟩, { top := d.top.reset, nested := [] }, { top := (d.withUnparsed u).top.reset, nested := [] }, ?_, ?_, ?_⟩
      · simp only [Decoder.call, hd d h]
      · simp only [Decoder.call, hd (d.withUnparsed u) h]
      · exact Alike.stopped (d := { top := d.top.reset, nested := [] }) u rfl
    | finish =>
      refine ⟨⟨false, []⟩, d.finish.2, (d.withUnparsed u).finish.2, ?_, ?_, ?_⟩
      · simp [Decoder.call, Decoder.finish, h]
      · have : (d.withUnparsed u).top.started = false := h
        simp [Decoder.call, Decoder.finish, this]
      · exact Alike.stopped (d := { top := d.top.reset, nested := [] }) u rfl
    | setMaxFile n => exact ⟨_, _, _, rfl, rfl, Alike.stopped (d := (d.setMaxFile n).2) u h⟩
    | setMaxWin n =>
      by_cases hn : n > targetSizeLimit
      · refine ⟨⟨false, []⟩, d, d.withUnparsed u, ?_, ?_, .stopped u h⟩
        · simp [Decoder.call, Decoder.setMaxWin, hn]
        · simp [Decoder.call, Decoder.setMaxWin, hn]
      · refine ⟨⟨true, []⟩, { d with top := { d.top with maxWin := n } },
          { d.withUnparsed u with top := { (d.withUnparsed u).top with maxWin := n } }, ?_, ?_, ?_⟩
        · simp only [Decoder.call, Decoder.setMaxWin, if_neg hn]
        · simp only [Decoder.call, Decoder.setMaxWin, if_neg hn]
        · exact Alike.stopped (d := { d with top := { d.top with maxWin := n } }) u h
    | setAllowTarget b =>
      refine ⟨⟨true, []⟩, { d with top := { d.top with allowTarget := b } },
          { d.withUnparsed u with top := { (d.withUnparsed u).top with allowTarget := b } }, ?_, ?_, ?_⟩
      · simp [Decoder.call, Decoder.setAllowTarget, h]
      · have : (d.withUnparsed u).top.started = false := h
        simp [Decoder.call, Decoder.setAllowTarget, this]
      · exact Alike.stopped (d := { d with top := { d.top with allowTarget := b } }) u h
  | @file v u h t =>
    have h' : InFileHeader (d.withUnparsed u) u := ⟨h.started, h.cache, h.leaf, rfl⟩
    cases c with
    | start dict =>
      right
      refine ⟨⟨true, []⟩, d, d.withUnparsed u, ?_, ?_, .file h t⟩
      · simp [Decoder.call, Decoder.start, h.started]
      · have := h'.started
        simp [Decoder.call, Decoder.start, this]
    | chunk data =>
      have e0 : d.top.setUnparsed v = d.top := by rw [← h.unparsed]; rfl
      have e1 : d.decodeChunk data = chunkRun (d.top.setUnparsed v) [] data := by rw [e0, ← h.leaf]; rfl
      have e2 : (d.withUnparsed u).decodeChunk data = chunkRun (d.top.setUnparsed u) [] data := by rw [← h.leaf]; rfl
      rcases chunkRun_fileTwin h.started h.cache (t.2.2 data) with e | ⟨w1, w2⟩
      · rw [e, ← e2] at e1
        cases hx : (d.withUnparsed u).decodeChunk data with
        | fault f => exact .inl ⟨f, by simp only [Decoder.call, e1, hx], by simp only [Decoder.call, hx]⟩
        | error L o =>
          exact .inr ⟨⟨false, o⟩, { top := L, nested := [] }, _, by simp only [Decoder.call, e1, hx], by simp only [Decoder.call, hx], .same _⟩
        | ok L ns o =>
          exact .inr ⟨⟨true, o⟩, { top := L, nested := ns }, _, by simp only [Decoder.call, e1, hx], by simp only [Decoder.call, hx], .same _⟩
      · rw [w1] at e1
        rw [w2] at e2
        right
        refine ⟨_, _, _, by simp only [Decoder.call, e1, endChunk, Level.appendNewOutput]; rfl,
          by simp only [Decoder.call, e2, endChunk, Level.appendNewOutput]; rfl, ?_⟩
        exact Alike.file (d := { top := { d.top with unparsed := v ++ data, outPos := d.top.decoded.length }, nested := [] })
          (v := v ++ data) (u := u ++ data) ⟨h.started, h.cache, rfl, rfl⟩ (t.append data)
    | finish =>
      right
      have key : ∀ (e : Decoder) (v : Bytes), InFileHeader e v → v ≠ [] → e.finish = (false, { top := e.top.reset, nested := [] }) := by
        intro e v he hu
        simp [Decoder.finish, Level.isComplete, he.cache, he.unparsed, hu]
      refine ⟨⟨false, []⟩, _, _, ?_, ?_, Alike.stopped (d := { top := d.top.reset, nested := [] }) u rfl⟩
      · simp only [Decoder.call, key d v h t.1]
      · simp only [Decoder.call, key _ u h' t.2.1]; rfl
    | setMaxFile n =>
      exact .inr ⟨_, _, _, rfl, rfl, Alike.file (d := (d.setMaxFile n).2) ⟨h.started, h.cache, h.leaf, h.unparsed⟩ t⟩
    | setMaxWin n =>
      right
      by_cases hn : n > targetSizeLimit
      · refine ⟨⟨false, []⟩, d, d.withUnparsed u, ?_, ?_, .file h t⟩
        · simp [Decoder.call, Decoder.setMaxWin, hn]
        · simp [Decoder.call, Decoder.setMaxWin, hn]
      · refine ⟨⟨true, []⟩, { d with top := { d.top with maxWin := n } },
          { d.withUnparsed u with top := { (d.withUnparsed u).top with maxWin := n } }, ?_, ?_, ?_⟩
        · simp only [Decoder.call, Decoder.setMaxWin, if_neg hn]
        · simp only [Decoder.call, Decoder.setMaxWin, if_neg hn]
        · exact Alike.file (d := { d with top := { d.top with maxWin := n } }) ⟨h.started, h.cache, h.leaf, h.unparsed⟩ t
    | setAllowTarget b =>
      right
      refine ⟨⟨true, []⟩, d, d.withUnparsed u, ?_, ?_, .file h t⟩
      · simp [Decoder.call, Decoder.setAllowTarget, h.started]
      · have := h'.started
        simp [Decoder.call, Decoder.setAllowTarget, this]
  | @header u h t =>
    have h' : InHeader (d.withUnparsed u) := ⟨h.started, h.cache, h.win, h.planned, h.leaf⟩
    cases c with
    | start dict =>
      right
      refine ⟨⟨true, []⟩, d, d.withUnparsed u, ?_, ?_, .header h t⟩
      · simp [Decoder.call, Decoder.start, h.started]
      · have := h'.started
        simp [Decoder.call, Decoder.start, this]
    | chunk data =>
      have e1 := h.decodeChunk data
      have e2 : (d.withUnparsed u).decodeChunk data = decodeChunkWindows d.top (u ++ data) :=
        (h'.decodeChunk data).trans (decodeChunkWindows_setUnparsed d.top u (u ++ data))
      rcases (t.append data).windows h.win with e | ⟨w1, w2⟩
      · rw [e, ← e2] at e1
        cases hx : (d.withUnparsed u).decodeChunk data with
        | fault f => exact .inl ⟨f, by simp only [Decoder.call, e1, hx], by simp only [Decoder.call, hx]⟩
        | error L o =>
          exact .inr ⟨⟨false, o⟩, { top := L, nested := [] }, _, by simp only [Decoder.call, e1, hx], by simp only [Decoder.call, hx], .same _⟩
        | ok L ns o =>
          exact .inr ⟨⟨true, o⟩, { top := L, nested := ns }, _, by simp only [Decoder.call, e1, hx], by simp only [Decoder.call, hx], .same _⟩
      · rw [w1] at e1
        rw [w2] at e2
        right
        refine ⟨_, _, _, by simp only [Decoder.call, e1, endChunk, Level.appendNewOutput]; rfl,
          by simp only [Decoder.call, e2, endChunk, Level.appendNewOutput]; rfl, ?_⟩
        exact Alike.header (d := { top := { d.top with unparsed := d.top.unparsed ++ data, outPos := d.top.decoded.length }, nested := [] })
          (u := u ++ data) ⟨h.started, h.cache, h.win, h.planned, rfl⟩ (t.append data)
    | finish =>
      right
      obtain ⟨c, hc⟩ := Option.ne_none_iff_exists'.1 h.cache
      have key : ∀ e : Decoder, InHeader e → e.top.unparsed ≠ [] → e.finish = (false, { top := e.top.reset, nested := [] }) := by
        intro e he hu
        obtain ⟨c, hc⟩ := Option.ne_none_iff_exists'.1 he.cache
        simp [Decoder.finish, Level.isComplete, hc, he.leaf, he.win, Level.reachedPlanned, he.planned, hu]
      refine ⟨⟨false, []⟩, _, _, ?_, ?_, Alike.stopped (d := { top := d.top.reset, nested := [] }) u rfl⟩
      · simp only [Decoder.call, key d h t.1]
      · simp only [Decoder.call, key _ h' t.2.1]; rfl
    | setMaxFile n =>
      exact .inr ⟨_, _, _, rfl, rfl, Alike.header (d := (d.setMaxFile n).2) ⟨h.started, h.cache, h.win, h.planned, h.leaf⟩ t⟩
    | setMaxWin n =>
      right
      by_cases hn : n > targetSizeLimit
      · refine ⟨⟨false, []⟩, d, d.withUnparsed u, ?_, ?_, .header h t⟩
        · simp [Decoder.call, Decoder.setMaxWin, hn]
        · simp [Decoder.call, Decoder.setMaxWin, hn]
      · refine ⟨⟨true, []⟩, { d with top := { d.top with maxWin := n } },
          { d.withUnparsed u with top := { (d.withUnparsed u).top with maxWin := n } }, ?_, ?_, ?_⟩
        · simp only [Decoder.call, Decoder.setMaxWin, if_neg hn]
        · simp only [Decoder.call, Decoder.setMaxWin, if_neg hn]
        · exact Alike.header (d := { d with top := { d.top with maxWin := n } }) ⟨h.started, h.cache, h.win, h.planned, h.leaf⟩ t
    | setAllowTarget b =>
      right
      refine ⟨⟨true, []⟩, d, d.withUnparsed u, ?_, ?_, .header h t⟩
      · simp [Decoder.call, Decoder.setAllowTarget, h.started]
      · have := h'.started
        simp [Decoder.call, Decoder.setAllowTarget, this]

/-- Any calls: the same replies. -/
theorem Alike.calls {d d' : Decoder} (h : Alike d d') (cs : List DecoderCall) :
    (d.calls cs).map Prod.fst = (d'.calls cs).map Prod.fst := by
  induction cs generalizing d d' with
  | nil => rfl
  | cons c cs ih =>
    rcases h.call c with ⟨f, h1, h2⟩ | ⟨r, e, e', h1, h2, h3⟩
    · simp only [Decoder.calls, h1, h2]
    · have := ih h3
      simp only [Decoder.calls, h1, h2]
      cases hx : e.calls cs with
      | error f =>
        cases hy : e'.calls cs with
        | error f' =>
          rw [hx, hy] at this
          exact this
        | ok y => rw [hx, hy] at this; simp [Except.map] at this
      | ok x =>
        cases hy : e'.calls cs with
        | error f' => rw [hx, hy] at this; simp [Except.map] at this
        | ok y =>
          rw [hx, hy] at this
          simp only [Except.map, Except.ok.injEq] at this ⊢
          rw [this]

/-- The next bytes of a window header. -/
theorem Twin.calls {s s' : Bytes} {d : Decoder} (t : Twin d.top.version (d.top.unparsed ++ s) (d.top.unparsed ++ s')) (h : InHeader d)
    (cs : List DecoderCall) : (d.calls (.chunk s :: cs)).map Prod.fst = (d.calls (.chunk s' :: cs)).map Prod.fst := by
  have key : ∀ x, (d.withUnparsed (d.top.unparsed ++ x)).call (.chunk []) = d.call (.chunk x) := by
    intro x
    have h' : InHeader (d.withUnparsed (d.top.unparsed ++ x)) := ⟨h.started, h.cache, h.win, h.planned, h.leaf⟩
    have e1 := h.decodeChunk x
    have e2 : (d.withUnparsed (d.top.unparsed ++ x)).decodeChunk [] = decodeChunkWindows d.top (d.top.unparsed ++ x ++ []) :=
      (h'.decodeChunk []).trans (decodeChunkWindows_setUnparsed d.top _ _)
    rw [List.append_nil] at e2
    simp only [Decoder.call, e1, e2]
  have := (Alike.header (d := d.withUnparsed (d.top.unparsed ++ s)) (u := d.top.unparsed ++ s')
    ⟨h.started, h.cache, h.win, h.planned, h.leaf⟩ t).calls (.chunk [] :: cs)
  have e : (d.withUnparsed (d.top.unparsed ++ s)).withUnparsed (d.top.unparsed ++ s') = d.withUnparsed (d.top.unparsed ++ s') := rfl
  rw [e] at this
  simpa only [Decoder.calls, key] using this

/-- The window indicator. -/
theorem Twin.indicator (v : UInt8) {x y : UInt8} (h : x &&& 7 = y &&& 7) : Twin v [x] [y] := by
  have m : ∀ k : UInt8, 7 &&& k = k → x &&& k = y &&& k := by
    intro k hk
    rw [← hk, ← UInt8.and_assoc, ← UInt8.and_assoc, h]
  have h3 : x &&& (vcdSource ||| vcdTarget) = y &&& (vcdSource ||| vcdTarget) := m _ (by decide)
  have h1 : x &&& vcdSource = y &&& vcdSource := m _ (by decide)
  have h2 : x &&& vcdTarget = y &&& vcdTarget := m _ (by decide)
  have h4 : x &&& vcdChecksum = y &&& vcdChecksum := m _ (by decide)
  refine ⟨by simp, by simp, rfl, fun L t _ => ?_⟩
  simp only [List.cons_append, List.nil_append]
  unfold readHeader parseWinIndicator
  simp only [parseByte, Parsed.bind, h3]
  by_cases c1 : y &&& (vcdSource ||| vcdTarget) = vcdSource
  · simp only [if_pos c1]
    cases parseSourceSegment L.dict.length t <;> simp only [h1, h2, h4]
  · simp only [if_neg c1]
    by_cases c2 : y &&& (vcdSource ||| vcdTarget) = vcdTarget
    · simp only [if_pos c2]
      cases L.allowTarget with
      | false => rfl
      | true =>
        simp only [Bool.not_true, Bool.false_eq_true, if_false]
        cases parseSourceSegment L.decoded.length t <;> simp only [h1, h2, h4]
    · simp only [if_neg c2]
      by_cases c3 : y &&& (vcdSource ||| vcdTarget) = vcdSource ||| vcdTarget
      · simp only [if_pos c3]
      · simp only [if_neg c3, h1, h2, h4]

/-- The window indicator without extensions. -/
theorem Twin.standard {v : UInt8} (hv : v ≠ 0x53) {x y : UInt8} (h : x &&& 3 = y &&& 3) : Twin v [x] [y] := by
  have m : ∀ k : UInt8, 3 &&& k = k → x &&& k = y &&& k := by
    intro k hk
    rw [← hk, ← UInt8.and_assoc, ← UInt8.and_assoc, h]
  have h3 : x &&& (vcdSource ||| vcdTarget) = y &&& (vcdSource ||| vcdTarget) := m _ (by decide)
  have h1 : x &&& vcdSource = y &&& vcdSource := m _ (by decide)
  have h2 : x &&& vcdTarget = y &&& vcdTarget := m _ (by decide)
  refine ⟨by simp, by simp, rfl, fun L t hL => ?_⟩
  have ha : L.allowExtensions = false := by simp [Level.allowExtensions, hL, hv]
  simp only [List.cons_append, List.nil_append]
  unfold readHeader parseWinIndicator
  simp only [parseByte, Parsed.bind, h3, ha, Bool.false_and]
  by_cases c1 : y &&& (vcdSource ||| vcdTarget) = vcdSource
  · simp only [if_pos c1]
    cases parseSourceSegment L.dict.length t <;> simp only [h1, h2]
  · simp only [if_neg c1]
    by_cases c2 : y &&& (vcdSource ||| vcdTarget) = vcdTarget
    · simp only [if_pos c2]
      cases L.allowTarget with
      | false => rfl
      | true =>
        simp only [Bool.not_true, Bool.false_eq_true, if_false]
        cases parseSourceSegment L.decoded.length t <;> simp only [h1, h2]
    · simp only [if_neg c2]
      by_cases c3 : y &&& (vcdSource ||| vcdTarget) = vcdSource ||| vcdTarget
      · simp only [if_pos c3]
      · simp only [if_neg c3, h1, h2]

/-- The parser reads exactly `w`, or does not accept it, whatever follows. -/
def Fixed {α : Type} (p : Bytes → Parsed α) (w : Bytes) : Prop :=
  (∃ v, ∀ t, p (w ++ t) = .ok v t) ∨ ∀ t, p (w ++ t) = .error

theorem Fixed.size {w : Bytes} (h : IsVarint w) : Fixed parseSize w := by
  obtain ⟨front, last, rfl, h1, h2⟩ := h
  cases hp : parseSize (front ++ [last]) with
  | error => exact .inr (Local.parseSize.error hp)
  | ok v r =>
    obtain ⟨pre, e, h3⟩ := Local.parseSize.ok hp
    rcases List.eq_nil_or_concat r with rfl | ⟨r', x, rfl⟩
    · rw [List.append_nil] at e
      rw [e]
      exact .inl ⟨v, h3⟩
    · exfalso
      have hv := (parseInt32_ok_iff _ _ _).1 (h3 [])
      obtain ⟨bs, e1, ⟨f2, l2, rfl, _, hl⟩, _⟩ := hv
      simp only [List.append_nil] at e1
      rw [List.concat_eq_append, ← List.append_assoc] at e
      have e' := (List.append_inj' e rfl).1
      refine hl (h1 l2 ?_)
      rw [e', e1]
      simp
  | endOfData =>
    exfalso
    have : parseVarint maxVal32 (front ++ [last]) = .endOfData := by
      unfold parseSize parseInt32 at hp
      cases hx : parseVarint maxVal32 (front ++ [last]) <;> simp_all [parseVarint32]
    exact h2 (((parseVarint_eod_iff _ (by decide) _).1 this).1 last (by simp))

theorem Fixed.bind {α β : Type} {p : Bytes → Parsed α} {f : α → Bytes → Parsed β} {w v : Bytes} (h : Fixed p w) (hf : ∀ x, Fixed (f x) v) :
    Fixed (fun s => (p s).bind f) (w ++ v) := by
  rcases h with ⟨x, h⟩ | h
  · rcases hf x with ⟨y, k⟩ | k
    · left; refine ⟨y, fun t => ?_⟩; simp only [List.append_assoc, h, Parsed.bind_ok, k]
    · right; intro t; simp only [List.append_assoc, h, Parsed.bind_ok, k]
  · right; intro t; simp only [List.append_assoc, h, Parsed.bind_error]

theorem Fixed.pure {α : Type} (v : α) : Fixed (fun s => Parsed.ok v s) [] := .inl ⟨v, fun _ => rfl⟩

theorem Fixed.segment (n : Nat) {p q : Bytes} (hp : IsVarint p) (hq : IsVarint q) : Fixed (parseSourceSegment n) (p ++ q) := by
  unfold parseSourceSegment
  refine (Fixed.size hp).bind fun len => ?_
  by_cases h : len > n
  · simp only [if_pos h]; exact .inr fun _ => rfl
  · simp only [if_neg h]
    have := (Fixed.size hq).bind (v := []) (f := fun pos s =>
      if pos ≥ n ∧ len > 0 then .error else if pos + len > n then .error else .ok (len, pos) s) (fun pos => by
        by_cases h1 : pos ≥ n ∧ len > 0
        · simp only [if_pos h1]; exact .inr fun _ => rfl
        · simp only [if_neg h1]
          by_cases h2 : pos + len > n
          · simp only [if_pos h2]; exact .inr fun _ => rfl
          · simp only [if_neg h2]; exact Fixed.pure _)
    rwa [List.append_nil] at this

theorem Fixed.indicator (m n : Nat) (a : Bool) {ind : UInt8} {segment : Bytes}
    (h : if ind &&& 3 = 0 then segment = [] else ∃ length position, segment = length ++ position ∧ IsVarint length ∧ IsVarint position) :
    Fixed (parseWinIndicator m n a) ([ind] ++ segment) := by
  have e3 : vcdSource ||| vcdTarget = 3 := by decide
  suffices hk : Fixed (fun s => if ind &&& 3 = vcdSource then (parseSourceSegment m s).bind fun lp s => Parsed.ok (ind, lp.1, lp.2) s
      else if ind &&& 3 = vcdTarget then
        if !a then .error else (parseSourceSegment n s).bind fun lp s => .ok (ind, lp.1, lp.2) s
      else if ind &&& 3 = 3 then .error else .ok (ind, 0, 0) s) segment by
    rcases hk with ⟨v, k⟩ | k
    · left; exact ⟨v, fun t => by rw [← k t]; simp only [parseWinIndicator, List.cons_append, List.nil_append, parseByte, Parsed.bind_ok, e3]⟩
    · right; exact fun t => by rw [← k t]; simp only [parseWinIndicator, List.cons_append, List.nil_append, parseByte, Parsed.bind_ok, e3]
  have seg : ∀ k, ind &&& 3 ≠ 0 → Fixed (fun s => (parseSourceSegment k s).bind fun lp s => Parsed.ok (ind, lp.1, lp.2) s) segment := by
    intro k h0
    rw [if_neg h0] at h
    obtain ⟨p, q, rfl, hp, hq⟩ := h
    have := (Fixed.segment k hp hq).bind (v := []) (f := fun lp s => Parsed.ok (ind, lp.1, lp.2) s) (fun _ => Fixed.pure _)
    rwa [List.append_nil] at this
  by_cases c1 : ind &&& 3 = vcdSource
  · simp only [if_pos c1]
    exact seg m (by rw [c1]; decide)
  · simp only [if_neg c1]
    by_cases c2 : ind &&& 3 = vcdTarget
    · simp only [if_pos c2]
      cases a with
      | false => exact .inr fun _ => rfl
      | true => exact seg n (by rw [c2]; decide)
    · simp only [if_neg c2]
      by_cases c3 : ind &&& 3 = 3
      · simp only [if_pos c3]; exact .inr fun _ => rfl
      · simp only [if_neg c3]
        have : ind &&& 3 = 0 := by
          revert c1 c2 c3
          have : ∀ x : UInt8, ¬ x &&& 3 = vcdSource → ¬ x &&& 3 = vcdTarget → ¬ x &&& 3 = 3 → x &&& 3 = 0 := by
            intro x h1 h2 h3
            have hx : (x &&& 3).toNat ≤ 3 := by rw [UInt8.toNat_and]; exact Nat.and_le_right
            have g1 : (x &&& 3).toNat ≠ 1 := fun hh => h1 (UInt8.toNat_inj.1 hh)
            have g2 : (x &&& 3).toNat ≠ 2 := fun hh => h2 (UInt8.toNat_inj.1 hh)
            have g3 : (x &&& 3).toNat ≠ 3 := fun hh => h3 (UInt8.toNat_inj.1 hh)
            exact UInt8.toNat_inj.1 (show (x &&& 3).toNat = 0 by omega)
          exact this ind
        rw [if_pos this] at h
        rw [h]
        exact Fixed.pure _

/-- The delta indicator. -/
theorem Twin.delta (v : UInt8) {w : Bytes} (h : BeforeDeltaIndicator w) {x y : UInt8} (hb : x &&& 7 = y &&& 7) : Twin v (w ++ [x]) (w ++ [y]) := by
  obtain ⟨ind, segment, a, b, rfl, hs, ha, hb'⟩ := h
  refine ⟨by simp, by simp, by simp, fun L t _ => ?_⟩
  have e : ∀ z : UInt8, ind :: (segment ++ a ++ b) ++ [z] ++ t = ([ind] ++ segment) ++ (a ++ (b ++ (z :: t))) := by
    intro z; simp
  rw [e, e]
  unfold readHeader
  rcases Fixed.indicator L.dict.length L.decoded.length L.allowTarget hs with ⟨v, h1⟩ | h1
  · rw [h1, h1]
    simp only [Parsed.bind_ok]
    rcases Fixed.size ha with ⟨n, h2⟩ | h2
    · rw [h2, h2]
      simp only [Parsed.bind_ok]
      rcases Fixed.size hb' with ⟨k, h3⟩ | h3
      · rw [h3, h3]
        simp only [Parsed.bind_ok, parseDeltaIndicator, parseByte, hb]
        by_cases hx : y &&& 7 = 0
        · simp only [hx, ne_eq, not_true_eq_false, if_false, Parsed.bind_ok, parseSectionLengths, List.length_append, List.length_cons]
        · simp only [hx, ne_eq, not_false_eq_true, if_true, Parsed.bind_error]
      · rw [h3, h3]; rfl
    · rw [h2, h2]
  · rw [h1, h1]

/-- No header ends before the delta indicator. -/
theorem before_not_ok {w : Bytes} (h : BeforeDeltaIndicator w) (L : Level) (hdr : WinHeader) (r : Bytes) :
    readHeader L w ≠ .ok hdr r := by
  obtain ⟨ind, segment, a, b, rfl, hs, ha, hb'⟩ := h
  have e : ind :: (segment ++ a ++ b) = ([ind] ++ segment) ++ (a ++ (b ++ [])) := by simp
  rw [e]
  unfold readHeader
  rcases Fixed.indicator L.dict.length L.decoded.length L.allowTarget hs with ⟨v, h1⟩ | h1
  · rw [h1]
    simp only [Parsed.bind_ok]
    rcases Fixed.size ha with ⟨n, h2⟩ | h2
    · rw [h2]
      simp only [Parsed.bind_ok]
      rcases Fixed.size hb' with ⟨k, h3⟩ | h3
      · rw [h3]
        simp only [Parsed.bind_ok, parseDeltaIndicator, parseByte, Parsed.bind_eod]
        by_cases hx : L.wouldExceed k = true
        · simp [if_pos hx]
        · simp [if_neg hx]
      · rw [h3]; simp
    · rw [h2]; simp
  · rw [h1]; simp

/-- Feeding the part of a window before the delta indicator. -/
theorem before_feed {w : Bytes} (h : BeforeDeltaIndicator w) {qs : List Bytes} {d : Decoder} (hd : InHeader d)
    (ho : d.top.outPos = d.top.decoded.length) (hq : d.top.unparsed ++ qs.flatten = w) :
    ∃ rs d', d.calls (qs.map .chunk) = .ok (rs, d') ∧ (∀ r ∈ rs, r.out = []) ∧ ((InHeader d' ∧ d'.top.unparsed = w) ∨ d'.top.started = false) := by
  induction qs generalizing d with
  | nil => exact ⟨[], d, rfl, by simp, .inl ⟨hd, by simpa using hq⟩⟩
  | cons q qs ih =>
    have e1 := hd.decodeChunk q
    have hstop : ∀ (e : Decoder) (qs : List Bytes), e.top.started = false →
        ∃ rs e', e.calls (qs.map .chunk) = .ok (rs, e') ∧ (∀ r ∈ rs, r.out = []) ∧ e'.top.started = false := by
      intro e qs
      induction qs generalizing e with
      | nil => intro he; exact ⟨[], e, rfl, by simp, he⟩
      | cons q qs ih =>
        intro he
        have := chunk_stopped he (data := q)
        obtain ⟨rs, e', k1, k3, k2⟩ := ih { top := e.top.reset, nested := [] } rfl
        refine ⟨⟨false, []⟩ :: rs, e', ?_, by simpa using k3, k2⟩
        simp only [List.map_cons, Decoder.calls, this, k1]
    have hx : readHeader d.top (d.top.unparsed ++ q) = .endOfData ∨ readHeader d.top (d.top.unparsed ++ q) = .error := by
      cases hr : readHeader d.top (d.top.unparsed ++ q) with
      | endOfData => exact .inl rfl
      | error => exact .inr rfl
      | ok hdr r =>
        exfalso
        have := ((Stable.readHeader d.top).ok hr).2 qs.flatten
        simp only [List.flatten_cons, ← List.append_assoc] at hq
        rw [hq] at this
        exact before_not_ok h _ _ _ this
    have hnext : decodeChunkWindows d.top (d.top.unparsed ++ q) = endChunk d.top [] (d.top.unparsed ++ q) [] →
        ∃ rs d', d.calls ((q :: qs).map .chunk) = .ok (rs, d') ∧ (∀ r ∈ rs, r.out = []) ∧ ((InHeader d' ∧ d'.top.unparsed = w) ∨ d'.top.started = false) := by
      intro hw
      rw [hw] at e1
      obtain ⟨rs, d', k1, k3, k2⟩ := ih (d := { top := { d.top with unparsed := d.top.unparsed ++ q, outPos := d.top.decoded.length }, nested := [] })
        ⟨hd.started, hd.cache, hd.win, hd.planned, rfl⟩ rfl (by simpa using hq)
      refine ⟨⟨true, [] ++ d.top.decoded.drop d.top.outPos⟩ :: rs, d', ?_, by simpa [ho] using k3, k2⟩
      simp only [List.map_cons, Decoder.calls, Decoder.call, e1, endChunk, Level.appendNewOutput, k1]
    by_cases hn : d.top.unparsed ++ q = []
    · refine hnext ?_
      unfold decodeChunkWindows
      rw [windowLoop, if_pos hn]
    · rcases hx with hx | hx
      · refine hnext ?_
        unfold decodeChunkWindows
        rw [windowLoop, if_neg hn, decodeWindow, hd.win]
        simp only [hx]
      · have hw : decodeChunkWindows d.top (d.top.unparsed ++ q) =
            .error ({ d.top with unparsed := [], decoded := [] } : Level).reset [] := by
          unfold decodeChunkWindows
          rw [windowLoop, if_neg hn, decodeWindow]
          simp only [hx]
          rw [hd.win]
        rw [hw] at e1
        obtain ⟨rs, d', k1, k3, k2⟩ := hstop { top := ({ d.top with unparsed := [], decoded := [] } : Level).reset, nested := [] } qs rfl
        refine ⟨⟨false, []⟩ :: rs, d', ?_, by simpa using k3, .inr k2⟩
        simp only [List.map_cons, Decoder.calls, Decoder.call, e1, k1]

/-- The format is given by the fourth byte of the file. -/
def Versioned (d : Decoder) (x : Bytes) : Prop := d.top.cache ≠ none → 5 ≤ x.length ∧ d.top.version = x.getD 3 0

theorem readFileHeader_version {s r : Bytes} {h : FileHeader} (hr : readFileHeader s = .ok h r) : h.version = s.getD 3 0 := by
  unfold readFileHeader at hr
  cases hm : checkMagic s with
  | none => simp [hm] at hr
  | some b =>
    cases b with
    | false => simp [hm] at hr
    | true =>
      simp only [hm] at hr
      by_cases h1 : s.getD 4 0 &&& 1 ≠ 0
      · rw [if_pos h1] at hr; simp at hr
      · rw [if_neg h1] at hr
        by_cases h2 : s.getD 4 0 &&& 2 ≠ 0
        · rw [if_pos h2] at hr
          obtain ⟨near, r1, _, hr⟩ := Parsed.bind_eq_ok.1 hr
          obtain ⟨same, r2, _, hr⟩ := Parsed.bind_eq_ok.1 hr
          by_cases h3 : near > 255
          · rw [if_pos h3] at hr; simp at hr
          · rw [if_neg h3] at hr
            by_cases h4 : same > 255
            · rw [if_pos h4] at hr; simp at hr
            · rw [if_neg h4] at hr
              simp only [Parsed.ok.injEq] at hr
              rw [← hr.1]
        · rw [if_neg h2] at hr
          simp only [Parsed.ok.injEq] at hr
          rw [← hr.1]

theorem Versioned.chunk {d : Decoder} {x c : Bytes} (hf : Fed d) (hp : Passed d x) (h : Versioned d x) {L : Level} {ns : List Level} {o : Bytes}
    (hc : d.decodeChunk c = .ok L ns o) : Versioned { top := L, nested := ns } (x ++ c) := by
  intro hn
  rw [decodeChunk_eq] at hc
  have hok := (chunk_inv hf.chain c).1 _ _ _ hc
  by_cases hd : d.top.cache = none
  · obtain ⟨_, hu⟩ := hp.1 hd
    rcases hok.plain hd with ⟨_, e, _⟩ | ⟨hdr, rest, h1, h2, _⟩
    · exfalso
      apply hn
      show L.cache = none
      rw [e]
      exact hd
    · rw [hu] at h1
      have := readFileHeader_ok_len h1
      exact ⟨by omega, h2.trans (readFileHeader_version h1)⟩
  · obtain ⟨h1, h2⟩ := h hd
    refine ⟨by simp only [List.length_append]; omega, ((hok.some hd).2.trans h2).trans ?_⟩
    simp only [List.getD_eq_getElem?_getD]
    rw [List.getElem?_append_left (by omega)]

/-- Calls of `DecodeChunk` that succeed, and the bytes passed. -/
theorem feed_passed {d d' : Decoder} {x : Bytes} (hf : Fed d) (hp : Passed d x) (hv : Versioned d x) {cs : List Bytes} {o : Bytes} (h : d.feed cs = some (o, d')) :
    Passed d' (x ++ cs.flatten) ∧ Versioned d' (x ++ cs.flatten) ∧ ∃ rs, d.calls (cs.map .chunk) = .ok (rs, d') := by
  induction cs generalizing d x o with
  | nil =>
    simp only [Decoder.feed, Option.some.injEq, Prod.mk.injEq] at h
    rw [← h.2]
    exact ⟨by simpa using hp, by simpa using hv, [], rfl⟩
  | cons c cs ih =>
    unfold Decoder.feed at h
    cases hc : d.decodeChunk c with
    | fault f => simp [hc] at h
    | error L o => simp [hc] at h
    | ok L ns o1 =>
      simp only [hc] at h
      cases hr : Decoder.feed { top := L, nested := ns } cs with
      | none => simp [hr] at h
      | some v =>
        simp only [hr, Option.some.injEq, Prod.mk.injEq] at h
        have hcall : d.call (.chunk c) = .ok (⟨true, o1⟩, { top := L, nested := ns }) := by simp only [Decoder.call, hc]
        have hp' := hp.chunk hf.chain.node.started hcall
        have hv' := hv.chunk hf hp hc
        have hf' : Fed { top := L, nested := ns } := by
          rw [decodeChunk_eq] at hc
          exact hf.next hc
        obtain ⟨k1, k3, rs, k2⟩ := ih hf' hp' hv' (o := v.1) (by rw [hr, ← h.2])
        rw [List.append_assoc, ← List.flatten_cons] at k1 k3
        exact ⟨k1, k3, ⟨true, o1⟩ :: rs, by simp only [List.map_cons, Decoder.calls, hcall, k2]⟩

theorem feed_total {d e : Decoder} {cs : List Bytes} {o : Bytes} (hd : Fed d) (h : d.feed cs = some (o, e)) (hle : d.top.total ≤ d.top.maxFile) :
    e.top.total + d.top.owed = d.top.total + e.top.owed + o.length ∧ e.top.total ≤ e.top.maxFile := by
  induction cs generalizing d o with
  | nil =>
    simp only [Decoder.feed, Option.some.injEq, Prod.mk.injEq] at h
    obtain ⟨rfl, rfl⟩ := h
    exact ⟨by simp, hle⟩
  | cons a cs ih =>
    obtain ⟨L1, ns1, o1, o2, h1, h2, rfl⟩ := feed_cons_some h
    have hok := (chunk_inv hd.chain a).1 _ _ _ h1
    have := ih (hd.next h1) h2 (hok.file hle)
    have ht := hok.total
    rw [List.length_append]
    exact ⟨by have := this.1; simp only at this; omega, this.2⟩

/-- A decoder that has come to the end of a file that is not empty stands before a window. -/
theorem complete_between {d : Decoder} (hs : d.top.started = false) {dict T : Bytes} {ps : List Bytes} (hne : ps.flatten ≠ [])
    (h : d.decode dict ps = some T) :
    ∃ rs e, d.calls (.start dict :: ps.map .chunk) = .ok (rs, e) ∧ InHeader e ∧ e.top.unparsed = [] ∧
      e.top.version = ps.flatten.getD 3 0 ∧ 5 ≤ ps.flatten.length ∧ e.top.outPos = e.top.decoded.length ∧
      e.top.dict = dict ∧ e.top.maxWin = d.top.maxWin ∧ e.top.maxFile = d.top.maxFile ∧ e.top.total = T.length ∧ T.length ≤ d.top.maxFile := by
  unfold Decoder.decode at h
  cases hf : (d.start dict).feed ps with
  | none => simp [hf] at h
  | some v =>
    obtain ⟨o, e⟩ := v
    simp only [hf] at h
    have hfed := Fed.start d hs dict
    have e0 := start_fresh hs dict
    obtain ⟨k1, k3, rs, k2⟩ := feed_passed hfed (x := []) ⟨fun _ => by rw [e0]; exact ⟨rfl, rfl⟩, fun hx => by rw [e0] at hx; simp at hx⟩
      (fun hx => by rw [e0] at hx; exact absurd rfl hx) hf
    have he := hfed.feed hf
    by_cases hfin : e.finish.1 = true
    · have hfin0 := hfin
      simp only [Decoder.finish, Bool.and_eq_true] at hfin
      obtain ⟨g1, g2⟩ := hfin
      have hc : e.top.cache ≠ none := by
        intro hc
        obtain ⟨_, hu⟩ := k1.1 hc
        simp only [Level.isComplete, hc, List.isEmpty_iff] at g2
        rw [g2] at hu
        exact hne (by simpa using hu.symm)
      obtain ⟨c, hc'⟩ := Option.ne_none_iff_exists'.1 hc
      simp only [Level.isComplete, hc', he.notDone] at g2
      have hwin : e.top.win = none := by
        cases hw : e.top.win with
        | none => rfl
        | some w => simp [hw] at g2
      have hmax := (feed_config hfed hf).maxFile.trans (show (d.start dict).top.maxFile = d.top.maxFile by rw [e0]; rfl)
      obtain ⟨ht1, ht2⟩ := feed_total hfed hf (by rw [e0]; exact Nat.zero_le _)
      have ht3 : e.top.total = T.length := by
        have hT : o = T := by
          have hfin' : e.finish.1 = true := hfin0
          simpa [hfin'] using h
        have z1 : (d.start dict).top.owed = 0 := by rw [e0]; rfl
        have z2 : (d.start dict).top.total = 0 := by rw [e0]; rfl
        have z3 : e.top.owed = 0 := by rw [Level.owed, hwin]
        rw [← hT]; omega
      refine ⟨⟨true, []⟩ :: rs, e, by simp only [Decoder.calls, Decoder.call, k2], ⟨g1, hc, ?_, he.planned, ?_⟩, ?_, (k3 hc).2, by simpa using (k3 hc).1, he.chain.node.out,
        (feed_config hfed hf).dict.trans (by rw [e0]), (feed_config hfed hf).maxWin.trans (by rw [e0]; rfl), hmax, ht3, by rw [← ht3, ← hmax]; exact ht2⟩
      · cases hw : e.top.win with
        | none => rfl
        | some w => simp [hw] at g2
      · cases hn : e.nested with
        | nil => rfl
        | cons n ns => simp [hn] at g2
      · cases hw : e.top.win with
        | some w => simp [hw] at g2
        | none =>
          cases hn : e.nested with
          | cons n ns => simp [hn] at g2
          | nil => simpa [hw, hn] using g2
    · simp [hfin] at h

theorem calls_after {d e : Decoder} {cs : List DecoderCall} {rs : List DecoderReply} (h : d.calls cs = .ok (rs, e)) (cs' : List DecoderCall) :
    (d.calls (cs ++ cs')).map Prod.fst = ((e.calls cs').map Prod.fst).map (rs ++ ·) := by
  induction cs generalizing d rs with
  | nil =>
    simp only [Decoder.calls, Except.ok.injEq, Prod.mk.injEq] at h
    obtain ⟨rfl, rfl⟩ := h
    simp only [List.nil_append]
    cases d.calls cs' <;> rfl
  | cons c cs ih =>
    simp only [Decoder.calls] at h
    cases hc : d.call c with
    | error f => simp [hc] at h
    | ok v =>
      obtain ⟨r, d1⟩ := v
      simp only [hc] at h
      cases hx : d1.calls cs with
      | error f => simp [hx] at h
      | ok y =>
        obtain ⟨rs1, e1⟩ := y
        simp only [hx, Except.ok.injEq, Prod.mk.injEq] at h
        obtain ⟨rfl, rfl⟩ := h
        have := ih hx
        simp only [List.cons_append, Decoder.calls, hc]
        cases hz : d1.calls (cs ++ cs') with
        | error f =>
          rw [hz] at this
          cases hy : e1.calls cs' with
          | error f' => rw [hy] at this; simpa [Except.map] using this
          | ok z => rw [hy] at this; simp [Except.map] at this
        | ok z =>
          rw [hz] at this
          cases hy : e1.calls cs' with
          | error f' => rw [hy] at this; simp [Except.map] at this
          | ok z' => rw [hy] at this; simp only [Except.map, Except.ok.injEq] at this ⊢; rw [this]

/-- A decode, told from the replies. -/
theorem decode_of_calls {d d' : Decoder} {dict : Bytes} {cs : List Bytes} {rs : List DecoderReply}
    (h : d.calls (.start dict :: cs.map .chunk ++ [.finish]) = .ok (rs, d')) (hr : ∀ r ∈ rs, r.ret = true) :
    d.decode dict cs = some (rs.flatMap (·.out)) := by
  have key : ∀ (cs : List Bytes) (d : Decoder) (rs : List DecoderReply), d.calls (cs.map .chunk ++ [.finish]) = .ok (rs, d') →
      (∀ r ∈ rs, r.ret = true) → ∃ e, d.feed cs = some (rs.flatMap (·.out), e) ∧ e.finish.1 = true := by
    intro cs
    induction cs with
    | nil =>
      intro d rs h hr
      simp only [List.map_nil, List.nil_append, Decoder.calls, Decoder.call, Except.ok.injEq, Prod.mk.injEq] at h
      refine ⟨d, by rw [← h.1]; rfl, ?_⟩
      have := hr ⟨d.finish.1, []⟩ (by rw [← h.1]; simp)
      exact this
    | cons c cs ih =>
      intro d rs h hr
      simp only [List.map_cons, List.cons_append, Decoder.calls, Decoder.call] at h
      cases hc : d.decodeChunk c with
      | fault f => simp [hc] at h
      | error L o =>
        simp only [hc] at h
        cases hx : Decoder.calls { top := L, nested := [] } (cs.map .chunk ++ [.finish]) with
        | error f => simp [hx] at h
        | ok v =>
          simp only [hx, Except.ok.injEq, Prod.mk.injEq] at h
          have := hr ⟨false, o⟩ (by rw [← h.1]; simp)
          exact absurd this (by simp)
      | ok L ns o =>
        simp only [hc] at h
        cases hx : Decoder.calls { top := L, nested := ns } (cs.map .chunk ++ [.finish]) with
        | error f => simp [hx] at h
        | ok v =>
          obtain ⟨rs', e'⟩ := v
          simp only [hx, Except.ok.injEq, Prod.mk.injEq] at h
          obtain ⟨rfl, rfl⟩ := h
          obtain ⟨e, k1, k2⟩ := ih _ _ hx (fun r hm => hr r (List.mem_cons_of_mem _ hm))
          refine ⟨e, ?_, k2⟩
          simp only [Decoder.feed, hc, k1, List.flatMap_cons]
  simp only [List.cons_append, Decoder.calls, Decoder.call] at h
  cases hx : (d.start dict).calls (cs.map .chunk ++ [.finish]) with
  | error f => simp [hx] at h
  | ok v =>
    obtain ⟨rs', e'⟩ := v
    simp only [hx, Except.ok.injEq, Prod.mk.injEq] at h
    obtain ⟨rfl, rfl⟩ := h
    obtain ⟨e, k1, k2⟩ := key _ _ _ hx (fun r hm => hr r (List.mem_cons_of_mem _ hm))
    simp only [Decoder.decode, k1, k2, if_true, List.flatMap_cons, List.nil_append]

/-- Decodes with the same replies have the same result. -/
theorem decode_congr {d : Decoder} {dict T : Bytes} {cs cs' : List Bytes}
    (h : (d.calls (.start dict :: cs.map .chunk ++ [.finish])).map Prod.fst = (d.calls (.start dict :: cs'.map .chunk ++ [.finish])).map Prod.fst)
    (hd : d.decode dict cs = some T) : d.decode dict cs' = some T := by
  obtain ⟨rs, d1, h1, h2, h3⟩ := Decoder.calls_of_decode hd
  rw [h1] at h
  cases hx : d.calls (.start dict :: cs'.map .chunk ++ [.finish]) with
  | error f => rw [hx] at h; simp [Except.map] at h
  | ok v =>
    rw [hx] at h
    simp only [Except.map, Except.ok.injEq] at h
    obtain ⟨rs', d'⟩ := v
    dsimp only at h
    subst h
    rw [decode_of_calls hx h2, h3]

/-! ## The file header -/

theorem InFileHeader.decodeChunk {d : Decoder} {u : Bytes} (h : InFileHeader d u) (q : Bytes) :
    (readFileHeader (u ++ q) = .endOfData → d.decodeChunk q = endChunk d.top [] (u ++ q) []) ∧
    (readFileHeader (u ++ q) = .error → d.decodeChunk q = .error ({ d.top with unparsed := [], decoded := [] } : Level).reset []) := by
  unfold Decoder.decodeChunk
  obtain ⟨n, hn⟩ : ∃ n, d.depthBound q = n + 1 := ⟨_, rfl⟩
  rw [hn, decodeChunkFuel, h.leaf]
  constructor <;> intro hr <;> simp [h.started, h.cache, h.unparsed, hr]

theorem stopped_chunks (cs : List Bytes) {d : Decoder} (h : d.top.started = false) :
    ∃ rs e, d.calls (cs.map .chunk) = .ok (rs, e) ∧ e.top.started = false := by
  induction cs generalizing d with
  | nil => exact ⟨[], d, rfl, h⟩
  | cons q qs ih =>
    have := chunk_stopped h q
    obtain ⟨rs, e', k1, k2⟩ := ih (d := { top := d.top.reset, nested := [] }) rfl
    refine ⟨⟨false, []⟩ :: rs, e', ?_, k2⟩
    simp only [List.map_cons, Decoder.calls, this, k1]

/-- Four bytes are not a file header. -/
theorem short_header {s : Bytes} (h : s.length ≤ 4) : readFileHeader s = .endOfData ∨ readFileHeader s = .error := by
  unfold readFileHeader
  have : checkMagic s ≠ some true := by
    match s, h with
    | [], _ => simp [checkMagic]
    | [a], _ => simp only [checkMagic]; split <;> simp
    | [a, b], _ => simp only [checkMagic]; split <;> simp
    | [a, b, c], _ => simp only [checkMagic]; split <;> simp
    | [a, b, c, e], _ => simp only [checkMagic]; split <;> (try split) <;> simp
  cases hm : checkMagic s with
  | none => exact .inr rfl
  | some v =>
    cases v with
    | true => exact absurd hm this
    | false => exact .inl rfl

theorem fileHeader_feed {w : Bytes} (hl : w.length = 4) {qs : List Bytes} {d : Decoder} {u : Bytes} (hd : InFileHeader d u)
    (hq : u ++ qs.flatten = w) :
    ∃ rs d', d.calls (qs.map .chunk) = .ok (rs, d') ∧ (InFileHeader d' w ∨ d'.top.started = false) := by
  induction qs generalizing d u with
  | nil => exact ⟨[], d, rfl, .inl (by simpa [← hq] using hd)⟩
  | cons q qs ih =>
    have hlen : (u ++ q).length ≤ 4 := by
      rw [← hl, ← hq]; simp
    rcases short_header hlen with hr | hr
    · have e1 := (hd.decodeChunk q).1 hr
      obtain ⟨rs, d', k1, k2⟩ := ih (u := u ++ q)
        (d := { top := { d.top with unparsed := u ++ q, outPos := d.top.decoded.length }, nested := [] })
        ⟨hd.started, hd.cache, rfl, rfl⟩ (by simpa using hq)
      refine ⟨⟨true, [] ++ d.top.decoded.drop d.top.outPos⟩ :: rs, d', ?_, k2⟩
      simp only [List.map_cons, Decoder.calls, Decoder.call, e1, endChunk, Level.appendNewOutput, k1]
    · have e1 := (hd.decodeChunk q).2 hr
      obtain ⟨rs, d', k1, k2⟩ := stopped_chunks qs (d := { top := ({ d.top with unparsed := [], decoded := [] } : Level).reset, nested := [] }) rfl
      refine ⟨⟨false, []⟩ :: rs, d', ?_, .inr k2⟩
      simp only [List.map_cons, Decoder.calls, Decoder.call, e1, k1]

/-- The header indicator. -/
theorem FileTwin.indicator {w : Bytes} (hl : w.length = 4) {x y : UInt8} (h : x &&& 3 = y &&& 3) : FileTwin (w ++ [x]) (w ++ [y]) := by
  have e1 : (3 : UInt8) &&& 1 = 1 := by decide
  have e2 : (3 : UInt8) &&& 2 = 2 := by decide
  have m1 : x &&& 1 = y &&& 1 := by rw [← e1, ← UInt8.and_assoc, ← UInt8.and_assoc, h]
  have m2 : x &&& 2 = y &&& 2 := by rw [← e2, ← UInt8.and_assoc, ← UInt8.and_assoc, h]
  refine ⟨by simp, by simp, fun t => ?_⟩
  match w, hl with
  | [a, b, c, e], _ =>
    have hm : checkMagic ([a, b, c, e] ++ [x] ++ t) = checkMagic ([a, b, c, e] ++ [y] ++ t) := by simp [checkMagic]
    have h3 : ∀ z : UInt8, ([a, b, c, e] ++ [z] ++ t).getD 3 0 = e := fun _ => rfl
    have h4 : ∀ z : UInt8, ([a, b, c, e] ++ [z] ++ t).getD 4 0 = z := fun _ => rfl
    have h5 : ∀ z : UInt8, ([a, b, c, e] ++ [z] ++ t).drop 5 = t := fun _ => rfl
    unfold readFileHeader
    simp only [hm, h3, h4, h5, m1, m2]

/-- The next bytes of the file header. -/
theorem FileTwin.calls {s s' v : Bytes} {d : Decoder} (h : InFileHeader d v) (t : FileTwin (v ++ s) (v ++ s')) (cs : List DecoderCall) :
    (d.calls (.chunk s :: cs)).map Prod.fst = (d.calls (.chunk s' :: cs)).map Prod.fst := by
  have e0 : d.top.setUnparsed v = d.top := by rw [← h.unparsed]; rfl
  have e1 : ∀ x, d.decodeChunk x = chunkRun (d.top.setUnparsed v) [] x := by intro x; rw [e0, ← h.leaf]; rfl
  have hr := t.2.2 []
  rw [List.append_nil, List.append_nil] at hr
  rcases chunkRun_fileTwin h.started h.cache hr with e | ⟨w1, w2⟩
  · have : d.call (.chunk s) = d.call (.chunk s') := by simp only [Decoder.call, e1, e]
    simp only [Decoder.calls, this]
  · have a1 := (Alike.file (d := { top := { d.top with unparsed := v ++ s, outPos := d.top.decoded.length }, nested := [] })
          (v := v ++ s) (u := v ++ s') ⟨h.started, h.cache, rfl, rfl⟩ t).calls cs
    have k : ∀ x, chunkRun (d.top.setUnparsed v) [] x = endChunk d.top [] (v ++ x) [] → d.call (.chunk x) =
        .ok (⟨true, [] ++ d.top.decoded.drop d.top.outPos⟩, { top := { d.top with unparsed := v ++ x, outPos := d.top.decoded.length }, nested := [] }) := by
      intro x hx
      simp only [Decoder.call, e1, hx, endChunk, Level.appendNewOutput]
    simp only [Decoder.calls, k s w1, k s' w2]
    have e : Decoder.withUnparsed { top := { d.top with unparsed := v ++ s, outPos := d.top.decoded.length }, nested := [] } (v ++ s') =
      { top := { d.top with unparsed := v ++ s', outPos := d.top.decoded.length }, nested := [] } := rfl
    rw [e] at a1
    generalize Decoder.calls { top := { d.top with unparsed := v ++ s, outPos := d.top.decoded.length }, nested := [] } cs = p at a1 ⊢
    generalize Decoder.calls { top := { d.top with unparsed := v ++ s', outPos := d.top.decoded.length }, nested := [] } cs = q at a1 ⊢
    cases p <;> cases q <;> simp_all [Except.map]

end Vcd
