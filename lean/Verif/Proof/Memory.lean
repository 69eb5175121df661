import Verif.Spec.Memory
import Verif.Proof.Nesting
import Verif.Proof.Eager

/-!
# Invariants about what a decoder keeps between calls
-/

namespace Vcd
open Spec

/-- Bytes from the start of the open window's sections on, or all bytes that are kept if no window is open. -/
def spanOf (L : Level) (r : Bytes) : Nat :=
  match L.win with
  | none => r.length
  | some w => r.length + (w.hdr.instLen - w.expected)

theorem spanOf_ge (L : Level) (r : Bytes) : r.length ≤ spanOf L r := by
  unfold spanOf; split <;> omega

/-- Bound `M` on target windows, the part of an open window that is still expected, and target data that has been dropped. -/
structure Kept (M : Nat) (L : Level) : Prop where
  openWin : ∀ w, L.win = some w → w.expected ≤ w.hdr.instLen ∧ w.hdr.targetLen ≤ M
  flushed : L.allowTarget = false → L.startPos = 0

theorem Kept.closed {L : Level} (M : Nat) (hL : LevelInv L) (hw : L.win = none) (hd : L.decoded = []) : Kept M L := by
  refine ⟨fun w h => ?_, fun _ => ?_⟩
  · rw [hw] at h; simp at h
  · rw [hL.closed hw, hd]; rfl

theorem Kept.ended {M : Nat} {L : Level} (h : Kept M L) (r : Bytes) : Kept M (L.ended r) := ⟨h.openWin, h.flushed⟩

/-- One interleaved window. -/
theorem dwb_kept {M : Nat} {L : Level} {w : OpenWindow} {c : AddrCache} {n m : Nat} (h : OpenInv L w c n m)
    (hw : w.expected ≤ w.hdr.instLen ∧ w.hdr.targetLen ≤ M) (hf : L.allowTarget = false → L.startPos = 0) {s r : Bytes} {L' : Level}
    (hd : decodeWindowBody L w c s = .endOfData L' r) :
    Kept M L' ∧ spanOf L' r = s.length + (w.hdr.instLen - w.expected) := by
  obtain ⟨e, b', rfl, hpos, hle, ⟨pre, h1, h2⟩, _⟩ := (dwb_inter_inv h s).2.1 _ _ hd
  refine ⟨⟨?_, hf⟩, ?_⟩
  · intro w' hw'
    simp only [Level.suspended, Option.some.injEq] at hw'
    subst hw'
    exact ⟨by simp only; omega, hw.2⟩
  · simp only [spanOf, Level.suspended]
    have := congrArg List.length h1
    rw [List.length_append] at this
    omega

theorem decodeWindow_kept {M : Nat} {L : Level} (hL : LevelInv L) (hk : Kept M L) (hM : L.maxWin ≤ M) {s r : Bytes} {L' : Level}
    (h : decodeWindow L s = .endOfData L' r) : Kept M L' ∧ spanOf L' r ≤ spanOf L s := by
  cases hw : L.win with
  | none =>
    rw [decodeWindow_none hw] at h
    cases hr : readHeader L s with
    | endOfData =>
      simp only [hr, WinResult.endOfData.injEq] at h
      obtain ⟨rfl, rfl⟩ := h
      exact ⟨hk, Nat.le_refl _⟩
    | error => simp [hr] at h
    | ok hdr rest =>
      obtain ⟨⟨pre, hpre, _⟩, _, _, _, _, hwe, _⟩ := readHeader_ok hr
      simp only [hr] at h
      cases hc : L.cache with
      | none => simp [hc] at h
      | some c0 =>
        simp only [hc, Option.bind_some] at h
        cases hci : c0.init with
        | none => simp [hci] at h
        | some c =>
          simp only [hci] at h
          obtain ⟨m, hcok⟩ := (hL.cache _ hc).init hci
          have hwin := newWindow_inv hL hw hr
          have ht : hdr.targetLen ≤ M := Nat.le_trans (wouldExceed_false hwe).1 hM
          by_cases hi : hdr.interleaved = true
          · have hopen : OpenInv (L.opened hdr) (newWindow hdr) c c0.nearSize m := ⟨hi, hwin, hcok⟩
            obtain ⟨k1, k2⟩ := dwb_kept (M := M) hopen ⟨Nat.le_refl _, ht⟩ hk.flushed h
            refine ⟨k1, ?_⟩
            rw [k2]
            have : spanOf L s = s.length := by simp [spanOf, hw]
            rw [this, hpre, List.length_append]
            change rest.length + (hdr.instLen - hdr.instLen) ≤ _
            omega
          · have hi' : hdr.interleaved = false := by simpa using hi
            rw [dwb_std (w := newWindow hdr) hi'] at h
            split at h <;> first | (simp at h; done) | (split at h <;> simp at h)
  | some w =>
    obtain ⟨_, _, c, n, m, hc, ho⟩ := hL.opened w hw
    rw [decodeWindow_some hw ho.inter hc] at h
    obtain ⟨k1, k2⟩ := dwb_kept (M := M) ho (hk.openWin w hw) hk.flushed h
    refine ⟨k1, Nat.le_of_eq ?_⟩
    rw [k2]
    simp [spanOf, hw]

/-- A finished window leaves nothing if earlier target data is not needed. -/
theorem next_kept {M : Nat} {L : Level} (hw : L.win = none) : Kept M L.next.1 := by
  refine ⟨fun w h => ?_, fun ha => ?_⟩
  · rw [(next_fields L).2.2.1, hw] at h; simp at h
  · have : L.next.1.allowTarget = L.allowTarget := (static_fields (next_static L)).allowTarget
    rw [this] at ha
    simp [Level.next, ha, Level.flush]

theorem winRun_kept {M : Nat} {L : Level} (hL : LevelInv L) (hp : L.planned = none) (hk : Kept M L) (hM : L.maxWin ≤ M)
    (ho : L.outPos ≤ L.decoded.length) {s r out : Bytes} {L' : Level} (h : winRun L s = .done L' r out) :
    Kept M L' ∧ spanOf L' r ≤ spanOf L s ∧ L'.decoded <:+ L.decoded.take L.outPos ++ (out ++ L'.text) := by
  induction hn : s.length using Nat.strongRecOn generalizing L s out with
  | _ n ih =>
    rw [winRun_eq hL] at h
    by_cases hs : s = []
    · subst hs
      simp only [if_true, WindowsResult.done.injEq] at h
      obtain ⟨rfl, rfl, rfl⟩ := h
      refine ⟨hk, Nat.le_refl _, ?_⟩
      simp [Level.text]
    rw [if_neg hs] at h
    cases hd : decodeWindow L s with
    | fault f => simp [hd] at h
    | error => simp [hd] at h
    | endOfData L1 r1 =>
      simp only [hd, WindowsResult.done.injEq] at h
      obtain ⟨rfl, rfl, rfl⟩ := h
      obtain ⟨i1, i2⟩ := decodeWindow_kept hL hk hM hd
      obtain ⟨_, _, _, d, j1, j2, _⟩ := decodeWindow_eod hL hd
      refine ⟨i1, i2, ?_⟩
      have : L.decoded.take L.outPos = L1.decoded.take L1.outPos := by
        rw [j1, j2, List.take_append_of_le_length ho]
      rw [this]
      simp [Level.text]
    | ok L1 r1 =>
      simp only [hd] at h
      obtain ⟨i1, i2, ⟨pre, hpre, hne⟩, d, j1, j2, _⟩ := decodeWindow_ok hL hd
      have hst := static_fields i1.stat
      have hpl : L1.reachedPlanned = false := by
        simp [Level.reachedPlanned, hst.planned, hp]
      rw [hpl] at h
      have hlt : r1.length < n := by
        have := List.length_pos_iff.2 (hne hs)
        rw [← hn, hpre, List.length_append]
        omega
      have hnst := static_fields (next_static L1)
      simp only [Bool.false_eq_true, if_false] at h
      cases hw : winRun L1.next.1 r1 with
      | fault f => simp [hw, WindowsResult.prepend] at h
      | error o => simp [hw, WindowsResult.prepend] at h
      | done L2 r2 o2 =>
        simp only [hw, WindowsResult.prepend, WindowsResult.done.injEq] at h
        obtain ⟨rfl, rfl, rfl⟩ := h
        obtain ⟨q1, q2, q3⟩ := ih _ hlt (i1.inv.next i2) (hnst.planned.trans (hst.planned.trans hp)) (next_kept i2)
          (by rw [hnst.maxWin, hst.maxWin]; exact hM) ((next_fields L1).2.2.2 (i1.out ho)) hw rfl
        refine ⟨q1, ?_, ?_⟩
        · refine Nat.le_trans q2 ?_
          have : spanOf L1.next.1 r1 = r1.length := by simp [spanOf, (next_fields L1).2.2.1, i2]
          rw [this]
          exact Nat.le_trans (by rw [hpre, List.length_append]; omega) (spanOf_ge L s)
        · by_cases ha : L1.allowTarget = true
          · have hx : L1.next = (L1, []) := by simp [Level.next, ha]
            rw [hx] at q3 ⊢
            simp only [List.nil_append] at q3 ⊢
            rw [j1, j2, List.take_append_of_le_length ho] at q3
            exact q3
          · have hx : L1.next.1.decoded = [] := by simp [Level.next, ha, Level.flush]
            rw [hx] at q3
            simp only [List.take_nil, List.nil_append] at q3
            refine q3.trans ?_
            exact ⟨L.decoded.take L.outPos ++ L1.next.2, by simp⟩

theorem windows_kept {M : Nat} {L : Level} (hL : NodeInv L) (hp : L.planned = none) (hk : Kept M L) (hM : L.maxWin ≤ M)
    {s out : Bytes} {L' : Level} {ns : List Level} (h : decodeChunkWindows L s = .ok L' ns out) :
    ns = [] ∧ Kept M L' ∧ spanOf L' L'.unparsed ≤ spanOf L s ∧ L'.decoded <:+ L.decoded ++ out := by
  rw [decodeChunkWindows_eq] at h
  cases hw : winRun L s with
  | fault f => simp [hw] at h
  | error o => simp [hw] at h
  | done L1 r1 o1 =>
    simp only [hw, ChunkResult.ok.injEq] at h
    obtain ⟨rfl, rfl, rfl⟩ := h
    obtain ⟨k1, k2, k3⟩ := winRun_kept hL.inv hp hk hM (Nat.le_of_eq hL.out) hw
    refine ⟨rfl, k1.ended r1, k2, ?_⟩
    rw [hL.out, List.take_length] at k3
    exact k3

theorem table_kept {M : Nat} {L n : Level} {ns : List Level} (hL : NodeInv L) (hp : L.planned = none) (hM : L.maxWin ≤ M)
    (hw : L.win = none) (hd : L.decoded = []) (hc : L.cache ≠ none) {s text out : Bytes} {L' : Level} {ns' : List Level}
    (h : afterCodeTableChunk L n ns s text = .ok L' ns' out) : Kept M L' ∧ L'.decoded <:+ out := by
  unfold afterCodeTableChunk at h
  dsimp only at h
  split at h
  · rw [endChunk_eq] at h
    simp only [ChunkResult.ok.injEq] at h
    obtain ⟨rfl, rfl, rfl⟩ := h
    refine ⟨⟨fun w h => ?_, fun _ => ?_⟩, ?_⟩
    · have : L.win = some w := h
      rw [hw] at this; simp at this
    · change L.startPos = 0
      rw [hL.inv.closed hw, hd]; rfl
    · change L.decoded <:+ _
      rw [hd]; exact List.nil_suffix
  · split at h
    · simp at h
    · split at h
      · split at h
        · simp at h
        · have hn := hL.closed_windows hw hc (L.tableAfter (L.tableString ++ text) (by assumption)) []
          obtain ⟨_, k1, _, k2⟩ := windows_kept (M := M) hn hp (Kept.closed M hn.inv hw hd) hM h
          refine ⟨k1, ?_⟩
          have e : L.decoded = [] := hd
          simpa [e] using k2
      · simp at h

/-- One call. -/
theorem chunk_kept {M : Nat} {L : Level} {ns : List Level} (hL : ChainInv L ns) (hp : L.planned = none) (hk : Kept M L)
    (hM : L.maxWin ≤ M) {data out : Bytes} {L' : Level} {ns' : List Level} (h : chunkRun L ns data = .ok L' ns' out) :
    Kept M L' ∧ L'.decoded <:+ L.decoded ++ out ∧
      (ns = [] → L.cache ≠ none → spanOf L' L'.unparsed ≤ spanOf L L.unparsed + data.length) := by
  have hnode := hL.node
  rw [chunkRun_eq, chunkStep, if_neg (by rw [hnode.started]; simp)] at h
  have hspan : ∀ t : Bytes, spanOf L (t ++ data) = spanOf L t + data.length := by
    intro t; unfold spanOf; split <;> simp <;> omega
  cases hc : L.cache with
  | some c =>
    simp only [hc] at h
    cases ns with
    | nil =>
      rw [tableStep] at h
      obtain ⟨_, k1, k2, k3⟩ := windows_kept hnode hp hk hM h
      exact ⟨k1, k3, fun _ _ => by rw [← hspan]; exact k2⟩
    | cons n ns =>
      obtain ⟨_, hwait, _, _⟩ := hL
      rw [tableStep] at h
      cases hr : chunkRun n ns (L.unparsed ++ data) with
      | fault f => simp [hr] at h
      | error L2 o2 => simp [hr, failed] at h
      | ok n2 ns2 text =>
        simp only [hr] at h
        obtain ⟨k1, k2⟩ := table_kept (M := M) hnode hp hM hwait.win hwait.decoded hwait.cache h
        exact ⟨k1, by rw [hwait.decoded]; exact k2, fun h0 => by simp at h0⟩
  | none =>
    simp only [hc] at h
    obtain ⟨hw, hd, _⟩ := hnode.fresh hc
    have hns := hL.none hc
    subst hns
    cases hr : readFileHeader (L.unparsed ++ data) with
    | error => simp [hr, failed] at h
    | endOfData =>
      simp only [hr, endChunk_eq, ChunkResult.ok.injEq] at h
      obtain ⟨rfl, rfl, rfl⟩ := h
      refine ⟨hk.ended _, ?_, fun _ h0 => absurd rfl h0⟩
      change L.decoded <:+ _
      exact ⟨[], by simp [hd, Level.text]⟩
    | ok hdr rest =>
      simp only [hr] at h
      obtain ⟨w1, w2, w3, w4, _, _, _, _, w5⟩ := withHeader_inv hnode hc hdr
      have hp' := w5.planned.trans hp
      have hM' : (L.withHeader hdr).maxWin ≤ M := by rw [w5.maxWin]; exact hM
      rw [hd, List.nil_append]
      cases hcc : hdr.caches with
      | none =>
        simp only [nestedFor, hcc, tableStep] at h
        obtain ⟨_, k1, _, k2⟩ := windows_kept (M := M) w1 hp' (Kept.closed M w1.inv w4 w3) hM' h
        rw [w3, List.nil_append] at k2
        exact ⟨k1, k2, fun _ h0 => absurd rfl h0⟩
      | some p =>
        have e : nestedFor hdr [] = [Level.forCodeTable] := by simp [nestedFor, hcc]
        rw [e, tableStep] at h
        cases hr2 : chunkRun Level.forCodeTable [] rest with
        | fault f => simp [hr2] at h
        | error L2 o2 => simp [hr2, failed] at h
        | ok n2 ns2 text =>
          simp only [hr2] at h
          obtain ⟨k1, k2⟩ := table_kept (M := M) w1 hp' hM' w4 w3 w2 h
          exact ⟨k1, k2, fun _ h0 => absurd rfl h0⟩

/-! ### Sequences of chunks -/

theorem feed_held {M : Nat} {d e : Decoder} (hd : Fed d) (hk : Kept M d.top) (hM : d.top.maxWin ≤ M) {cs : List Bytes} {o : Bytes}
    (h : d.feed cs = some (o, e)) :
    Kept M e.top ∧ e.top.decoded <:+ d.top.decoded ++ o ∧ e.top.maxWin = d.top.maxWin ∧ e.top.allowTarget = d.top.allowTarget ∧
      (d.top.allowTarget = true → e.top.decoded = d.top.decoded ++ o) ∧
      (d.nested = [] → d.top.cache ≠ none → e.nested = [] ∧ e.top.cache ≠ none ∧ e.top.table = d.top.table ∧
        spanOf e.top e.top.unparsed ≤ spanOf d.top d.top.unparsed + cs.flatten.length ∧
        e.top.unparsed.length ≤ d.top.unparsed.length + cs.flatten.length) := by
  induction cs generalizing d o with
  | nil =>
    simp only [Decoder.feed, Option.some.injEq, Prod.mk.injEq] at h
    obtain ⟨rfl, rfl⟩ := h
    exact ⟨hk, ⟨[], by simp⟩, rfl, rfl, fun _ => by simp, fun h0 h1 => ⟨h0, h1, rfl, by simp, by simp⟩⟩
  | cons c cs ih =>
    obtain ⟨L, ns, o1, o2, h1, h2, rfl⟩ := feed_cons_some h
    have hok := (chunk_inv hd.chain c).1 _ _ _ h1
    obtain ⟨k1, k2, k3⟩ := chunk_kept hd.chain hd.planned hk hM h1
    obtain ⟨q1, q2, q3, q4, q5, q6⟩ := ih (hd.next h1) k1 (by rw [hok.config.maxWin]; exact hM) h2
    refine ⟨q1, ?_, q3.trans hok.config.maxWin, q4.trans hok.config.allowTarget, ?_, ?_⟩
    · obtain ⟨t, ht⟩ := k2
      refine q2.trans ⟨t, ?_⟩
      rw [← List.append_assoc, ht, List.append_assoc]
    · intro ha
      rw [q5 (hok.config.allowTarget.trans ha), hok.kept ha, List.append_assoc]
    · intro h0 h3
      cases hc : d.top.cache with
      | none => exact absurd hc h3
      | some c0 =>
        obtain ⟨n1, n2, _, _, c', n5, _⟩ := hok.near h0 c0 hc
        obtain ⟨m1, m2, m3, m4, m5⟩ := q6 n1 (by rw [n5]; simp)
        have := k3 h0 h3
        obtain ⟨pre, hp⟩ := hok.suffix
        have hl := congrArg List.length hp
        simp only [List.flatten_cons, List.length_append] at *
        exact ⟨m1, m2, m3.trans n2, by omega, by omega⟩

theorem Kept.start (d : Decoder) (M : Nat) (hs : d.top.started = false) (dict : Bytes) : Kept M (d.start dict).top := by
  rw [start_fresh hs]
  exact ⟨fun w h => by simp [Level.reset] at h, fun _ => rfl⟩

/-- Decoders that behave in the same way have the same target data and begin the open window at the same place. -/
theorem DecEqv.span {M : Nat} {d e : Decoder} (h : DecEqv d e) (hd : Kept M d.top) (he : Kept M e.top) (hn : e.nested = []) :
    d.nested = [] ∧ spanOf d.top d.top.unparsed = spanOf e.top e.top.unparsed ∧ d.top.decoded = e.top.decoded ∧
      d.top.win.isSome = e.top.win.isSome ∧
      (NoNoops e.top.table → d.top.unparsed = e.top.unparsed) := by
  unfold DecEqv at h
  rw [hn] at h
  generalize d.nested = dn at h
  generalize hdt : d.top = L at h hd
  generalize het : e.top = L' at h he
  cases h with
  | leaf h =>
    have hl := h.level
    have hdec : L'.decoded = L.decoded := by
      have := congrArg Level.decoded hl
      exact this
    have htab : L'.table = L.table := by
      have := congrArg Level.table hl
      exact this
    refine ⟨rfl, ?_, hdec.symm, ?_, ?_⟩
    · rcases h.rest with ⟨h1, h2, h3⟩ | ⟨w, w', h1, h2, h3, _, h5, h6, _⟩
      · have h1 : L.win = none := h1
        have h2 : L'.win = none := h2
        simp [spanOf, h1, h2, h3]
      · have h1 : L.win = some w := h1
        have h2 : L'.win = some w' := h2
        have := (hd.openWin w h1).1
        have := (he.openWin w' h2).1
        have h7 := congrArg List.length h5
        simp only [List.length_drop] at h7
        simp only [spanOf, h1, h2]
        rw [h3] at *
        omega
    · rcases h.rest with ⟨h1, h2, h3⟩ | ⟨w, w', h1, h2, _⟩
      · have h1 : L.win = none := h1
        have h2 : L'.win = none := h2
        rw [h1, h2]
      · have h1 : L.win = some w := h1
        have h2 : L'.win = some w' := h2
        rw [h1, h2]; rfl
    · intro hno
      have hskip : ∀ s : Bytes, skipNoops L.table s = s := by
        intro s
        rw [← htab]
        cases s with
        | nil => simp [skipNoops]
        | cons op s => simp [skipNoops, hno op]
      rcases h.rest with ⟨_, _, h3⟩ | ⟨w, w', _, _, _, _, h5, _, h7, h8⟩
      · exact h3
      · have ht : L.unparsed.take w.expected = L'.unparsed.take w'.expected := by
          by_cases hp : w.pending = none
          · have := h7 hp
            have e : (L.setUnparsed []).table = L.table := rfl
            rw [e, hskip, hskip] at this
            exact this
          · exact h8 hp
        rw [← List.take_append_drop w.expected L.unparsed, ← List.take_append_drop w'.expected L'.unparsed, ht, h5]

/-! ### Code tables that are being read -/

/-- `custom_code_table_string_` of the innermost decoder. -/
def leafString : Level → List Level → Bytes
  | L, [] => L.tableString
  | _, n :: ns => leafString n ns

theorem windows_string {L : Level} (hL : NodeInv L) (hc : L.cache ≠ none) {s out : Bytes} {L' : Level} {ns : List Level}
    (h : decodeChunkWindows L s = .ok L' ns out) : ns = [] ∧ L'.tableString = L.tableString := by
  obtain ⟨h1, _, _, _, _, _, _, _, _, _, h2, _⟩ := (windows_inv hL hc s).1 _ _ _ h
  exact ⟨h1, h2.2⟩

theorem table_string {L n : Level} {ns : List Level} (hL : NodeInv L) (hw : L.win = none) (hc : L.cache ≠ none)
    {s text out : Bytes} {L' : Level} {ns' : List Level} (hs : leafString n ns = [])
    (h : afterCodeTableChunk L n ns s text = .ok L' ns' out) : leafString L' ns' = [] := by
  unfold afterCodeTableChunk at h
  dsimp only at h
  split at h
  · rw [endChunk_eq] at h
    simp only [ChunkResult.ok.injEq] at h
    obtain ⟨rfl, rfl, rfl⟩ := h
    exact hs
  · split at h
    · simp at h
    · split at h
      · split at h
        · simp at h
        · have hn := hL.closed_windows hw hc (L.tableAfter (L.tableString ++ text) (by assumption)) []
          obtain ⟨rfl, k2⟩ := windows_string hn hc h
          exact k2
      · simp at h

theorem chunk_string {L L' : Level} {ns ns' : List Level} {data out : Bytes} (hi : ChainInv L ns) (hs : leafString L ns = [])
    (h : chunkRun L ns data = .ok L' ns' out) : leafString L' ns' = [] := by
  induction hn : chunkDepth L ns data using Nat.strongRecOn generalizing L ns data L' ns' out with
  | _ k ih =>
    subst hn
    have hnode := hi.node
    rw [chunkRun_eq, chunkStep, if_neg (by rw [hnode.started]; simp)] at h
    cases hc : L.cache with
    | some c =>
      simp only [hc] at h
      cases ns with
      | nil =>
        rw [tableStep] at h
        obtain ⟨rfl, k2⟩ := windows_string hnode (by rw [hc]; simp) h
        exact k2.trans hs
      | cons n ns =>
        obtain ⟨_, hwait, hnest, hchain⟩ := hi
        have hlt : chunkDepth n ns (L.unparsed ++ data) < chunkDepth L (n :: ns) data := by
          simp only [chunkDepth, List.map_cons, List.sum_cons, List.length_append]
          omega
        rw [tableStep] at h
        cases hr : chunkRun n ns (L.unparsed ++ data) with
        | fault f => simp [hr] at h
        | error L2 o2 => simp [hr, failed] at h
        | ok n2 ns2 text =>
          simp only [hr] at h
          exact table_string hnode hwait.win hwait.cache (ih _ hlt hchain hs hr rfl) h
    | none =>
      simp only [hc] at h
      have hns := hi.none hc
      subst hns
      cases hr : readFileHeader (L.unparsed ++ data) with
      | error => simp [hr, failed] at h
      | endOfData =>
        simp only [hr, endChunk_eq, ChunkResult.ok.injEq] at h
        obtain ⟨rfl, rfl, rfl⟩ := h
        exact hs
      | ok hdr rest =>
        simp only [hr] at h
        obtain ⟨w1, w2, w3, w4, _, _, w6, _, w5⟩ := withHeader_inv hnode hc hdr
        cases hcc : hdr.caches with
        | none =>
          simp only [nestedFor, hcc, tableStep] at h
          obtain ⟨rfl, k2⟩ := windows_string w1 w2 h
          exact k2.trans ((w6.2 hcc).trans hs)
        | some p =>
          have h7 := readFileHeader_custom_pre hr hcc
          have e : nestedFor hdr [] = [Level.forCodeTable] := by simp [nestedFor, hcc]
          rw [e, tableStep] at h
          have hlt : chunkDepth Level.forCodeTable [] rest < chunkDepth L [] data := by
            have : Level.forCodeTable.unparsed = [] := rfl
            simp only [chunkDepth, List.map_cons, List.sum_cons, List.map_nil, List.sum_nil, this, List.length_nil]
            simp only [List.length_append] at h7
            omega
          cases hr2 : chunkRun Level.forCodeTable [] rest with
          | fault f => simp [hr2] at h
          | error L2 o2 => simp [hr2, failed] at h
          | ok n2 ns2 text =>
            simp only [hr2] at h
            exact table_string w1 w4 w2 (ih _ hlt forCodeTable_inv.2.2 rfl hr2 rfl) h

theorem feed_string {d e : Decoder} (hd : Fed d) (hs : leafString d.top d.nested = []) {cs : List Bytes} {o : Bytes}
    (h : d.feed cs = some (o, e)) : leafString e.top e.nested = [] := by
  induction cs generalizing d o with
  | nil =>
    simp only [Decoder.feed, Option.some.injEq, Prod.mk.injEq] at h
    obtain ⟨rfl, rfl⟩ := h
    exact hs
  | cons c cs ih =>
    obtain ⟨L, ns, o1, o2, h1, h2, rfl⟩ := feed_cons_some h
    exact ih (hd.next h1) (chunk_string hd.chain hs h1) h2

/-- Only the innermost decoder keeps input, and less than two code tables are kept for each nested decoder. -/
theorem chain_held {L : Level} {ns : List Level} (h : ChainInv L ns) (hs : leafString L ns = []) :
    ((L :: ns).map fun L => L.unparsed.length).sum = ((L :: ns).getLast (by simp)).unparsed.length ∧
    ((L :: ns).map fun L => L.tableString.length).sum + (ns.map fun L => L.decoded.length).sum ≤ 3070 * ns.length := by
  induction ns generalizing L with
  | nil =>
    have : L.tableString = [] := hs
    simp [this]
  | cons n ns ih =>
    obtain ⟨_, hwait, hnest, hchain⟩ := h
    obtain ⟨i1, i2⟩ := ih hchain hs
    have h1 := hwait.unparsed
    have h2 := hnest.small
    have h3 := hwait.str
    refine ⟨?_, ?_⟩
    · rw [List.map_cons, List.sum_cons, i1, h1]
      simp
    · simp only [List.map_cons, List.sum_cons, List.length_cons, h3, codeTableSize] at *
      omega

/-! ### From a point of the delta on -/

/-- The file header and whole windows leave a decoder between two windows, with nothing unparsed. -/
theorem feed_boundary {d : Decoder} {s : Settings} {left : CodeTable} (hs : d.top.started = false) (ht : d.top.table = left)
    (allow : s.allowTarget = d.top.allowTarget) (window : s.maxWindow = d.top.maxWin) (file : s.maxFile = d.top.maxFile)
    {dict hdr ws T : Bytes} {ext : Bool} {c : Coding} (hh : FileHeaderCode library hdr ext c left)
    (hw : Windows c ext library s dict [] ws T) :
    ∃ cs L, cs.flatten = hdr ++ ws ∧ (d.start dict).feed cs = some (T, { top := L, nested := [] }) ∧
      NodeInv L ∧ L.win = none ∧ L.unparsed = [] ∧ L.cache ≠ none ∧ (c.near + c.same ≤ 254 → Between c ext s dict L T) := by
  have hf := Fed.start d hs dict
  have e := start_fresh hs dict
  have hn : (d.start dict).nested = [] := by rw [e]
  have hc : (d.start dict).top.cache = none := by rw [e]; rfl
  have hu : (d.start dict).top.unparsed = [] := by rw [e]; rfl
  have htt : (d.start dict).top.table = left := by rw [e]; exact ht
  obtain ⟨cs1, L1, e1, f1, hL1, hu1⟩ := header_feed hh rfl rfl (by decide) hf.chain.node hc hu (conf_start hs allow window file dict) htt
  have hd0 : d.start dict = { top := (d.start dict).top, nested := [] } := by rw [← hn]
  by_cases hne : c.near + c.same ≤ 254
  · obtain ⟨cs2, L2, e2, f2, hL2, hB2, hu2, hc2⟩ := feed_windows hL1.node (hL1.between hne) hL1.cache hu1 hw rfl rfl
    rw [List.nil_append] at hB2
    refine ⟨cs1 ++ cs2, L2, by simp [e1, e2], ?_, hL2, hB2.fits.win, hu2, hc2, fun _ => hB2⟩
    rw [hd0]
    exact feed_append.2 ⟨_, _, _, f1, f2, rfl⟩
  · cases hw with
    | nil =>
      refine ⟨cs1, L1, by simp [e1], ?_, hL1.node, hL1.win, hu1, hL1.cache, fun h => absurd h hne⟩
      rw [hd0]; exact f1
    | cons h1 _ => exact absurd h1.caches hne

/-- What a decoder keeps after a point of the delta, from what it keeps at that point. -/
theorem held_after {M : Nat} {d0 e0 d : Decoder} (hd : Fed d0) (hk : Kept M d0.top) (hM : d0.top.maxWin ≤ M)
    {cs0 cs : List Bytes} {T o u : Bytes} (h0 : d0.feed cs0 = some (T, e0)) (hn : e0.nested = []) (hc : e0.top.cache ≠ none)
    (h : d0.feed cs = some (o, d)) (hb : cs.flatten = cs0.flatten ++ u) :
    ∃ o2, o = T ++ o2 ∧ d.nested = [] ∧ spanOf d.top d.top.unparsed ≤ spanOf e0.top e0.top.unparsed + u.length ∧
      d.top.decoded <:+ e0.top.decoded ++ o2 ∧ d.top.table = e0.top.table ∧
      (NoNoops e0.top.table → d.top.unparsed.length ≤ e0.top.unparsed.length + u.length) := by
  have tab : ∀ {a b : Decoder}, DecEqv a b → a.top.table = b.top.table ∧ (a.top.cache ≠ none → b.top.cache ≠ none) := by
    intro a b hab
    unfold DecEqv at hab
    generalize a.nested = x at hab
    generalize b.nested = y at hab
    generalize a.top = L at hab
    generalize b.top = L' at hab
    cases hab with
    | leaf hl =>
      have h1 := congrArg Level.table hl.level
      have h2 := congrArg Level.cache hl.level
      have h1 : L'.table = L.table := h1
      have h2 : L'.cache = L.cache := h2
      exact ⟨h1.symm, fun h3 => by rw [h2]; exact h3⟩
    | node => exact ⟨rfl, fun h3 => h3⟩
  obtain ⟨a, fa, ea⟩ := feed_refine_all hd (css := cs0.map singles) (by rw [map_singles_flatten]; exact h0)
  obtain ⟨b, fb, eb⟩ := feed_refine_all hd (css := cs.map singles) (by rw [map_singles_flatten]; exact h)
  rw [flatten_map_singles] at fa fb
  rw [hb, singles_append, feed_append] at fb
  obtain ⟨a', o1, o2, k1, k2, k3⟩ := fb
  rw [fa] at k1
  simp only [Option.some.injEq, Prod.mk.injEq] at k1
  obtain ⟨rfl, rfl⟩ := k1
  have ka := feed_held hd hk hM fa
  have ke := feed_held hd hk hM h0
  have kd := feed_held hd hk hM h
  have hfa := hd.feed fa
  have ea' : DecEqv a e0 := ChainEqv.symm ea
  obtain ⟨s1, s2, s3, s4, s5⟩ := DecEqv.span ea' ka.1 ke.1 hn
  have kb := feed_held hfa ka.1 (by rw [ka.2.2.1]; exact hM) k2
  obtain ⟨m1, m2, m3, m4, m5⟩ := kb.2.2.2.2.2 s1 ((tab ea).2 hc)
  obtain ⟨r1, r2, r3, r4, r5⟩ := DecEqv.span eb kd.1 kb.1 m1
  have ht : b.top.table = e0.top.table := m3.trans (tab ea').1
  rw [singles_flatten] at m4 m5
  refine ⟨o2, k3, r1, by omega, ?_, (tab eb).1.trans ht, ?_⟩
  · rw [r3, ← s3]; exact kb.2.1
  · intro hno
    rw [r5 (by rw [ht]; exact hno)]
    rw [s5 hno] at m5
    exact m5

end Vcd
