import Verif.Proof.ChunkSplit

/-!
# Sequences of API calls
-/

namespace Vcd
open Spec

/-! ### Changing the limits -/

def Level.setLim (L : Level) (f w : Nat) : Level := { L with maxFile := f, maxWin := w }

def WinResult.setLim (f w : Nat) : WinResult → WinResult
  | .ok L r => .ok (L.setLim f w) r
  | .endOfData L r => .endOfData (L.setLim f w) r
  | r => r

theorem decodeWindowBody_setLim (L : Level) (f m : Nat) (w : OpenWindow) (c : AddrCache)
    (s : Bytes) :
    decodeWindowBody (L.setLim f m) w c s = (decodeWindowBody L w c s).setLim f m := by
  cases hi : w.hdr.interleaved with
  | true =>
    rw [dwb_inter hi, dwb_inter hi]
    change (match bodyRun (L.env w.hdr) (interBody L w c s) with
      | .fault f => _ | .error => _ | .ok b' => _ | .endOfData b' => _) = _
    cases bodyRun (L.env w.hdr) (interBody L w c s) with
    | fault f => rfl
    | error => rfl
    | ok b =>
      simp only
      have : bodyEndOk ((L.setLim f m).env w.hdr) b = bodyEndOk (L.env w.hdr) b := rfl
      rw [this]
      split <;> rfl
    | endOfData b =>
      simp only
      split <;> rfl
  | false =>
    rw [dwb_std hi, dwb_std hi]
    change (match bodyRun (L.env w.hdr) (stdBody L w c s) with
      | .fault f => _ | .error => _ | .endOfData b' => _ | .ok b' => _) = _
    cases bodyRun (L.env w.hdr) (stdBody L w c s) with
    | fault f => rfl
    | error => rfl
    | ok b =>
      simp only
      have : bodyEndOk ((L.setLim f m).env w.hdr) b = bodyEndOk (L.env w.hdr) b := rfl
      rw [this]
      split <;> rfl
    | endOfData b => rfl

theorem NodeInv.setLim {L : Level} (h : NodeInv L) (f w : Nat) : NodeInv (L.setLim f w) := by
  refine ⟨h.started, ⟨h.inv.closed, ?_, h.inv.cache⟩, ?_, h.out, h.fresh⟩
  · intro w' hw
    obtain ⟨h1, h2, c, n, m, h3, h4⟩ := h.inv.opened w' hw
    exact ⟨h1, h2, c, n, m, h3, h4.inter, h4.win, h4.cache⟩
  · cases hw : L.win with
    | none => exact quiet_closed hw
    | some w' =>
      have hq := h.quiet
      unfold Level.Quiet at hq ⊢
      have hw' : (L.setLim f w).win = some w' := hw
      have hc : (L.setLim f w).cache = L.cache := rfl
      unfold decodeWindow at hq ⊢
      rw [hw] at hq
      rw [hw', hc]
      simp only at hq ⊢
      split
      · rename_i hi
        rw [if_pos hi] at hq
        simp at hq
      · rename_i hi
        rw [if_neg hi] at hq
        cases hcc : L.cache with
        | none => simp [hcc] at hq
        | some c =>
          simp only [hcc] at hq ⊢
          rw [decodeWindowBody_setLim, hq]
          rfl

theorem ChainInv.setLim {L : Level} {ns : List Level} (h : ChainInv L ns) (f w : Nat) :
    ChainInv (L.setLim f w) ns := by
  cases ns with
  | nil => exact NodeInv.setLim h f w
  | cons n ns =>
    obtain ⟨h1, h2, h3, h4⟩ := h
    exact ⟨h1.setLim f w, ⟨h2.cache, h2.unparsed, h2.decoded, h2.win, h2.total, h2.str⟩, h3, h4⟩

/-! ### Invariant of the API -/

/-- What holds between any two API calls. -/
def DecInv (d : Decoder) : Prop :=
  d.top.started = true → ChainInv d.top d.nested ∧ d.top.planned = none

theorem start_inv (L : Level) (hs : L.started = false) (dict : Bytes) :
    NodeInv (L.start dict) ∧ (L.start dict).planned = none := by
  have e : L.start dict =
      { ({ L with unparsed := [], decoded := [] } : Level).reset with dict := dict, started := true } := by
    simp [Level.start, hs]
  rw [e]
  refine ⟨⟨rfl, ⟨fun _ => rfl, fun w hw => ?_, fun c hc => ?_⟩, quiet_closed rfl, rfl, fun _ => ⟨rfl, rfl, rfl⟩⟩, rfl⟩
  · simp [Level.reset] at hw
  · simp [Level.reset] at hc

theorem DecInv.start {d : Decoder} (h : DecInv d) (dict : Bytes) :
    DecInv (d.start dict) ∧ (d.start dict).top.started = true := by
  unfold Decoder.start
  by_cases hs : d.top.started = true
  · rw [if_pos hs]; exact ⟨h, hs⟩
  · rw [if_neg hs]
    have hs' : d.top.started = false := by simpa using hs
    obtain ⟨h1, h2⟩ := start_inv d.top hs' dict
    exact ⟨fun _ => ⟨h1, h2⟩, h1.started⟩

theorem DecInv.call {d d' : Decoder} {c : DecoderCall} {r : DecoderReply} (h : DecInv d)
    (hc : d.call c = .ok (r, d')) : DecInv d' := by
  cases c with
  | start dict =>
    simp only [Decoder.call, Except.ok.injEq, Prod.mk.injEq] at hc
    rw [← hc.2]
    exact (h.start dict).1
  | finish =>
    simp only [Decoder.call, Except.ok.injEq, Prod.mk.injEq] at hc
    rw [← hc.2]
    intro hs
    simp [Decoder.finish, Level.reset] at hs
  | setMaxFile n =>
    simp only [Decoder.call, Except.ok.injEq, Prod.mk.injEq] at hc
    rw [← hc.2]
    intro hs
    obtain ⟨h1, h2⟩ := h hs
    exact ⟨h1.setLim n d.top.maxWin, h2⟩
  | setMaxWin n =>
    simp only [Decoder.call, Except.ok.injEq, Prod.mk.injEq] at hc
    rw [← hc.2]
    unfold Decoder.setMaxWin
    split
    · exact h
    · intro hs
      obtain ⟨h1, h2⟩ := h hs
      exact ⟨h1.setLim d.top.maxFile n, h2⟩
  | setAllowTarget b =>
    simp only [Decoder.call, Except.ok.injEq, Prod.mk.injEq] at hc
    rw [← hc.2]
    unfold Decoder.setAllowTarget
    split
    · exact h
    · rename_i hs
      intro hs'
      exact absurd hs' hs
  | chunk data =>
    simp only [Decoder.call, decodeChunk_eq] at hc
    by_cases hs : d.top.started = true
    · obtain ⟨h1, h2⟩ := h hs
      obtain ⟨i1, i2, _⟩ := chunk_inv h1 data
      cases hr : chunkRun d.top d.nested data with
      | fault f => simp [hr] at hc
      | error L o =>
        simp only [hr, Except.ok.injEq, Prod.mk.injEq] at hc
        rw [← hc.2]
        intro hs
        have := (i2 _ _ hr).stopped
        rw [this] at hs
        simp at hs
      | ok L ns o =>
        simp only [hr, Except.ok.injEq, Prod.mk.injEq] at hc
        rw [← hc.2]
        intro _
        have := i1 _ _ _ hr
        exact ⟨this.inv, this.config.planned.trans h2⟩
    · have hs' : d.top.started = false := by simpa using hs
      rw [chunkRun_eq, chunkStep, if_pos hs'] at hc
      simp only [Except.ok.injEq, Prod.mk.injEq] at hc
      rw [← hc.2]
      intro hs
      simp [Level.reset] at hs

theorem DecInv.calls {d d' : Decoder} {cs : List DecoderCall} {rs : List DecoderReply} (h : DecInv d)
    (hc : d.calls cs = .ok (rs, d')) : DecInv d' := by
  induction cs generalizing d rs with
  | nil =>
    simp only [Decoder.calls, Except.ok.injEq, Prod.mk.injEq] at hc
    rw [← hc.2]; exact h
  | cons c cs ih =>
    unfold Decoder.calls at hc
    cases h1 : d.call c with
    | error f => simp [h1] at hc
    | ok p =>
      obtain ⟨r, d1⟩ := p
      simp only [h1] at hc
      cases h2 : d1.calls cs with
      | error f => simp [h2] at hc
      | ok q =>
        obtain ⟨rs', d2⟩ := q
        simp only [h2, Except.ok.injEq, Prod.mk.injEq] at hc
        obtain ⟨rfl, rfl⟩ := hc
        exact ih (h.call h1) h2

theorem DecInv.new : DecInv {} := by
  intro h
  simp at h

/-- A call faults only in a chunk. -/
theorem call_fault {d : Decoder} (h : DecInv d) {c : DecoderCall} {f : Fault} (hc : d.call c = .error f) :
    d.top.started = true ∧ ∃ data, c = .chunk data ∧ ChunkFault d.top d.nested data f := by
  cases c with
  | chunk data =>
    simp only [Decoder.call, decodeChunk_eq] at hc
    by_cases hs : d.top.started = true
    · refine ⟨hs, data, rfl, ?_⟩
      obtain ⟨_, _, i3⟩ := chunk_inv (h hs).1 data
      cases hr : chunkRun d.top d.nested data with
      | fault f' =>
        simp only [hr, Except.error.injEq] at hc
        subst hc
        exact i3 _ hr
      | error L o => simp [hr] at hc
      | ok L ns o => simp [hr] at hc
    · have hs' : d.top.started = false := by simpa using hs
      rw [chunkRun_eq, chunkStep, if_pos hs'] at hc
      simp at hc
  | _ => simp [Decoder.call] at hc

theorem calls_fault {d : Decoder} (h : DecInv d) {cs : List DecoderCall} {f : Fault}
    (hc : d.calls cs = .error f) : f = .nearOverflow ∨ f = .cacheOob := by
  induction cs generalizing d with
  | nil => simp [Decoder.calls] at hc
  | cons c cs ih =>
    unfold Decoder.calls at hc
    cases h1 : d.call c with
    | error f' =>
      simp only [h1, Except.error.injEq] at hc
      subst hc
      obtain ⟨_, data, _, hf⟩ := call_fault h h1
      exact hf.any
    | ok p =>
      obtain ⟨r, d1⟩ := p
      simp only [h1] at hc
      cases h2 : d1.calls cs with
      | error f' =>
        simp only [h2, Except.error.injEq] at hc
        subst hc
        exact ih (h.call h1) h2
      | ok q => simp [h2] at hc

/-! ### Feeding chunks -/

/-- A decoder in the middle of a decode, between two calls. -/
structure Fed (d : Decoder) : Prop where
  chain : ChainInv d.top d.nested
  planned : d.top.planned = none
  waits : Waits d.top d.nested

theorem Fed.notDone {d : Decoder} (h : Fed d) : d.top.reachedPlanned = false := by
  simp [Level.reachedPlanned, h.planned]

theorem Fed.start (d : Decoder) (hs : d.top.started = false) (dict : Bytes) : Fed (d.start dict) := by
  obtain ⟨h1, h2⟩ := start_inv d.top hs dict
  have e : d.start dict = { top := d.top.start dict, nested := [] } := by simp [Decoder.start, hs]
  have e2 : d.top.start dict =
      { ({ d.top with unparsed := [], decoded := [] } : Level).reset with dict := dict, started := true } := by
    simp [Level.start, hs]
  rw [e]
  refine ⟨h1, h2, ?_, ?_, ?_⟩
  · intro _; rw [e2]; rfl
  · intro hx; rw [e2] at hx; exact absurd rfl hx
  · intro _; simp only [Level.reachedPlanned, h2]

theorem Fed.next {d : Decoder} (h : Fed d) {data out : Bytes} {L : Level} {ns : List Level}
    (hr : chunkRun d.top d.nested data = .ok L ns out) : Fed { top := L, nested := ns } := by
  have := (chunk_inv h.chain data).1 _ _ _ hr
  have hp : L.planned = none := this.config.planned.trans h.planned
  refine ⟨this.inv, hp, this.hdr, ?_, ?_⟩
  · intro h1 h2
    rcases this.idle h1 h2 with h | h
    · exact h
    · have := h.1
      simp only [Level.reachedPlanned, hp] at this
      simp at this
  · intro _
    simp only [Level.reachedPlanned, hp]

/-- Feeding an empty chunk changes nothing. -/
theorem chunk_empty {L : Level} {ns : List Level} (h : ChainInv L ns) (hw : Waits L ns) :
    chunkRun L ns [] = .ok L ns [] := by
  induction ns generalizing L with
  | nil =>
    have hL : NodeInv L := h
    by_cases hc : L.cache = none
    · rw [chunkRun_eq, chunkStep, if_neg (by rw [hL.started]; simp)]
      simp only [hc, List.append_nil, hw.hdr hc]
      have hd := (hL.fresh hc).2.1
      have ho : L.outPos = 0 := by rw [hL.out, hd]; rfl
      simp [endChunk, Level.appendNewOutput, hd, ← ho]
      rw [← hd]
    · rw [chunkRun_windows hL hc, decodeChunkWindows_eq, List.append_nil, winRun_eq' hL.inv hL.quiet,
        hw.idle hc rfl]
      simp only
      have : L.text = [] := by simp [Level.text, hL.out]
      rw [this]
      have : L.ended L.unparsed = L := by
        unfold Level.ended Level.setUnparsed Level.setOut
        rw [← hL.out]
      rw [this]
      rfl
  | cons n ns ih =>
    obtain ⟨h1, h2, h3, h4⟩ := h
    rw [chunkRun_nested h1 h2.cache, h2.unparsed, List.append_nil, tableStep]
    have hn := ih h4 h3.waits
    rw [hn]
    simp only
    rcases table_cases h2.decoded h2.str h3 ((chunk_inv h4 []).1 _ _ _ hn) with ⟨a1, a2⟩ | ⟨a1, _⟩
    · rw [a2]
      have ho : L.outPos = 0 := by rw [h1.out, h2.decoded]; rfl
      have : ({ L with tableString := n.decoded, unparsed := [], outPos := 0 } : Level) = L := by
        rw [← h2.str, ← h2.unparsed, ← ho]
      rw [this]
    · have := h3.small
      omega

theorem feed_cons (d : Decoder) (c : Bytes) (cs : List Bytes) :
    d.feed (c :: cs) = match chunkRun d.top d.nested c with
      | .ok L nested out =>
        match Decoder.feed { top := L, nested := nested } cs with
        | some (outs, d') => some (out ++ outs, d')
        | none => none
      | _ => none := by
  rw [Decoder.feed, decodeChunk_eq]
  cases chunkRun d.top d.nested c <;> rfl

theorem feed_cons_some {d d' : Decoder} {c : Bytes} {cs : List Bytes} {o : Bytes}
    (h : d.feed (c :: cs) = some (o, d')) :
    ∃ L ns o1 o2, chunkRun d.top d.nested c = .ok L ns o1 ∧
      Decoder.feed { top := L, nested := ns } cs = some (o2, d') ∧ o = o1 ++ o2 := by
  rw [feed_cons] at h
  cases h1 : chunkRun d.top d.nested c with
  | fault f => simp [h1] at h
  | error L o => simp [h1] at h
  | ok L ns o1 =>
    simp only [h1] at h
    cases h2 : Decoder.feed { top := L, nested := ns } cs with
    | none => simp [h2] at h
    | some p =>
      obtain ⟨o2, d2⟩ := p
      simp only [h2, Option.some.injEq, Prod.mk.injEq] at h
      obtain ⟨rfl, rfl⟩ := h
      exact ⟨L, ns, o1, o2, rfl, h2, rfl⟩

theorem feed_cons_of {d d' : Decoder} {c : Bytes} {cs : List Bytes} {o1 o2 : Bytes} {L : Level}
    {ns : List Level} (h1 : chunkRun d.top d.nested c = .ok L ns o1)
    (h2 : Decoder.feed { top := L, nested := ns } cs = some (o2, d')) :
    d.feed (c :: cs) = some (o1 ++ o2, d') := by
  rw [feed_cons, h1]
  simp only [h2]

theorem feed_append {d d' : Decoder} {xs ys : List Bytes} {o : Bytes} :
    d.feed (xs ++ ys) = some (o, d') ↔
      ∃ d1 o1 o2, d.feed xs = some (o1, d1) ∧ d1.feed ys = some (o2, d') ∧ o = o1 ++ o2 := by
  induction xs generalizing d o with
  | nil =>
    constructor
    · intro h
      exact ⟨d, [], o, rfl, h, rfl⟩
    · rintro ⟨d1, o1, o2, h1, h2, rfl⟩
      simp only [Decoder.feed, Option.some.injEq, Prod.mk.injEq] at h1
      obtain ⟨rfl, rfl⟩ := h1
      exact h2
  | cons c xs ih =>
    constructor
    · intro h
      obtain ⟨L, ns, p1, p2, h1, h2, rfl⟩ := feed_cons_some h
      obtain ⟨d1, q1, q2, h3, h4, rfl⟩ := ih.1 h2
      exact ⟨d1, p1 ++ q1, q2, feed_cons_of h1 h3, h4, by simp⟩
    · rintro ⟨d1, o1, o2, h1, h2, rfl⟩
      obtain ⟨L, ns, p1, p2, h3, h4, rfl⟩ := feed_cons_some h1
      have := ih.2 ⟨d1, p2, o2, h4, h2, rfl⟩
      rw [List.append_assoc]
      exact feed_cons_of h3 this

theorem Fed.feed {d d' : Decoder} (h : Fed d) {cs : List Bytes} {o : Bytes}
    (hf : d.feed cs = some (o, d')) : Fed d' := by
  induction cs generalizing d o with
  | nil =>
    simp only [Decoder.feed, Option.some.injEq, Prod.mk.injEq] at hf
    rw [← hf.2]; exact h
  | cons c cs ih =>
    obtain ⟨L, ns, p1, p2, h1, h2, rfl⟩ := feed_cons_some hf
    exact ih (h.next h1) h2

/-- Decoders with the same behaviour. -/
def DecEqv (d d' : Decoder) : Prop := ChainEqv d.top d.nested d'.top d'.nested

theorem feed_congr {d d' e : Decoder} (hd : Fed d) (hd' : Fed d') (h : DecEqv d d') {cs : List Bytes}
    {o : Bytes} (hf : d.feed cs = some (o, e)) : ∃ e', d'.feed cs = some (o, e') ∧ DecEqv e e' := by
  induction cs generalizing d d' o with
  | nil =>
    simp only [Decoder.feed, Option.some.injEq, Prod.mk.injEq] at hf
    obtain ⟨rfl, rfl⟩ := hf
    exact ⟨d', rfl, h⟩
  | cons c cs ih =>
    obtain ⟨L, ns, p1, p2, h1, h2, rfl⟩ := feed_cons_some hf
    have hr := chunk_congr h hd.chain hd'.chain c
    rw [h1] at hr
    generalize hy : chunkRun d'.top d'.nested c = y at hr
    cases hr with
    | @ok _ L' _ ns' _ hh =>
      obtain ⟨e', h3, h4⟩ := ih (hd.next h1) (hd'.next hy) hh h2
      exact ⟨e', feed_cons_of hy h3, h4⟩

/-- What one call accepts, the same bytes in several calls accept. -/
theorem feed_refine {d : Decoder} (hd : Fed d) {xs : List Bytes} {L : Level} {ns : List Level} {o : Bytes}
    (h : chunkRun d.top d.nested xs.flatten = .ok L ns o) :
    ∃ e, d.feed xs = some (o, e) ∧ DecEqv { top := L, nested := ns } e := by
  induction xs generalizing d L ns o with
  | nil =>
    have h' : chunkRun d.top d.nested [] = .ok L ns o := h
    rw [chunk_empty hd.chain hd.waits] at h'
    simp only [ChunkResult.ok.injEq] at h'
    obtain ⟨rfl, rfl, rfl⟩ := h'
    exact ⟨d, rfl, ChainEqv.refl _ _⟩
  | cons a xs ih =>
    rw [List.flatten_cons] at h
    rcases chunk_split hd.chain (fun _ => hd.notDone) a xs.flatten with
      ⟨f, _, h2⟩ | ⟨_, _, _, _, h2⟩ | ⟨L1, ns1, o1, h1, h2⟩
    · rw [h] at h2; simp at h2
    · rw [h] at h2; simp at h2
    · have hfed := hd.next h1
      rcases h2 with ⟨hdone, _⟩ | ⟨_, h2⟩ | ⟨_, _, _, h2, _⟩
      · have := hfed.notDone
        have := hdone.1
        simp_all
      · rw [h] at h2
        generalize hy : chunkRun L1 ns1 xs.flatten = y at h2
        cases h2 with
        | @ok _ L' _ ns' o' hh =>
          obtain ⟨e, h3, h4⟩ := ih hfed hy
          exact ⟨e, feed_cons_of h1 h3, hh.trans h4⟩
      · rw [h] at h2; simp at h2

/-- What several calls accept, one call accepts, or it fails with a shorter output. -/
theorem feed_coarsen {d : Decoder} (hd : Fed d) {xs : List Bytes} {e : Decoder} {o : Bytes}
    (h : d.feed xs = some (o, e)) :
    (∃ L ns, chunkRun d.top d.nested xs.flatten = .ok L ns o ∧ DecEqv { top := L, nested := ns } e) ∨
    ∃ L o', chunkRun d.top d.nested xs.flatten = .error L o' ∧ o' <+: o := by
  induction xs generalizing d o with
  | nil =>
    simp only [Decoder.feed, Option.some.injEq, Prod.mk.injEq] at h
    obtain ⟨rfl, rfl⟩ := h
    exact Or.inl ⟨_, _, chunk_empty hd.chain hd.waits, ChainEqv.refl _ _⟩
  | cons a xs ih =>
    obtain ⟨L1, ns1, o1, o2, h1, h2, rfl⟩ := feed_cons_some h
    rw [List.flatten_cons]
    rcases chunk_split hd.chain (fun _ => hd.notDone) a xs.flatten with
      ⟨f, h3, _⟩ | ⟨_, _, _, h3, _⟩ | ⟨L1', ns1', o1', h3, h4⟩
    · rw [h1] at h3; simp at h3
    · rw [h1] at h3; simp at h3
    · rw [h1] at h3
      simp only [ChunkResult.ok.injEq] at h3
      obtain ⟨rfl, rfl, rfl⟩ := h3
      have hfed := hd.next h1
      rcases h4 with ⟨hdone, _⟩ | ⟨_, h4⟩ | ⟨_, L', o', h4, h5, _⟩
      · have := hfed.notDone
        have := hdone.1
        simp_all
      · generalize hx : chunkRun d.top d.nested (a ++ xs.flatten) = x at h4
        rcases ih hfed h2 with ⟨L2, ns2, k1, k2⟩ | ⟨L2, o3, k1, k2⟩
        · have k1' : chunkRun L1 ns1 xs.flatten = .ok L2 ns2 o2 := k1
          rw [k1'] at h4
          cases h4 with
          | ok _ hh => exact Or.inl ⟨_, _, rfl, hh.trans k2⟩
        · have k1' : chunkRun L1 ns1 xs.flatten = .error L2 o3 := k1
          rw [k1'] at h4
          cases h4 with
          | @error L3 _ o4 _ hp =>
            refine Or.inr ⟨L3, o4, rfl, ?_⟩
            obtain ⟨t, ht⟩ := k2
            exact hp.trans ⟨t, by rw [List.append_assoc, ht]⟩
      · exact Or.inr ⟨L', o', h4, h5.trans (List.prefix_append _ _)⟩

/-- Refining every chunk. -/
theorem feed_refine_all {d : Decoder} (hd : Fed d) {css : List (List Bytes)} {e : Decoder} {o : Bytes}
    (h : d.feed (css.map List.flatten) = some (o, e)) :
    ∃ e', d.feed css.flatten = some (o, e') ∧ DecEqv e e' := by
  induction css generalizing d o e with
  | nil =>
    simp only [List.map_nil, Decoder.feed, Option.some.injEq, Prod.mk.injEq] at h
    obtain ⟨rfl, rfl⟩ := h
    exact ⟨d, rfl, ChainEqv.refl _ _⟩
  | cons cs css ih =>
    rw [List.map_cons] at h
    obtain ⟨L, ns, o1, o2, h1, h2, rfl⟩ := feed_cons_some h
    obtain ⟨e1, h3, h4⟩ := feed_refine hd h1
    obtain ⟨e2, h5, h6⟩ := ih (hd.next h1) h2
    obtain ⟨e3, h7, h8⟩ := feed_congr (d := { top := L, nested := ns }) (hd.next h1) (hd.feed h3) h4 h5
    refine ⟨e3, ?_, ChainEqv.trans h6 h8⟩
    rw [List.flatten_cons, feed_append]
    exact ⟨e1, o1, o2, h3, h7, rfl⟩

theorem DecEqv.finish {d d' : Decoder} (h : DecEqv d d') (hd : Fed d) (hd' : Fed d') :
    d.finish.1 = d'.finish.1 := by
  have hch := hd.chain
  have hs := hd.chain.node.started
  have hs' := hd'.chain.node.started
  unfold DecEqv at h
  unfold Decoder.finish
  simp only [hs, hs', Bool.true_and]
  generalize d.top = L at *
  generalize d.nested = ns at *
  generalize d'.top = L' at *
  generalize d'.nested = ns' at *
  cases h with
  | node => rfl
  | leaf h =>
    have h1 : L'.cache = L.cache := by
      have := congrArg Level.cache h.level
      exact this
    have h2 : L'.reachedPlanned = L.reachedPlanned := by
      have e1 := congrArg Level.planned h.level
      have e2 := congrArg Level.total h.level
      have e1' : L'.planned = L.planned := e1
      have e2' : L'.total = L.total := e2
      unfold Level.reachedPlanned
      rw [e1', e2']
    unfold Level.isComplete
    rw [h1, h2]
    rcases h.rest with ⟨k1, k2, k3⟩ | ⟨w, w', k1, k2, _⟩
    · have k1' : L.win = none := k1
      have k2' : L'.win = none := k2
      rw [k1', k2', k3]
    · have k1' : L.win = some w := k1
      have k2' : L'.win = some w' := k2
      cases hc : L.cache with
      | none =>
        have hn : NodeInv L := hch
        have := (hn.fresh hc).1
        rw [k1'] at this
        simp at this
      | some c => simp [k1', k2']

end Vcd
