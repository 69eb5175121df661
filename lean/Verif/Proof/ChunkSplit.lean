import Verif.Proof.ChunkInv

/-!
# `DecodeChunk` when the input arrives in two pieces
-/

namespace Vcd
open Spec

/-! ### The output position -/

theorem text_setOut {L : Level} {p : Nat} (h1 : L.outPos ≤ p) (h2 : p ≤ L.decoded.length) (d : Bytes) :
    (L.decoded ++ d).drop L.outPos = (L.decoded.drop L.outPos).take (p - L.outPos) ++ (L.decoded ++ d).drop p := by
  rw [List.drop_append_of_le_length (by omega), List.drop_append_of_le_length h2]
  rw [← List.append_assoc]
  congr 1
  have : L.decoded.drop p = (L.decoded.drop L.outPos).drop (p - L.outPos) := by
    rw [List.drop_drop]; congr 1; omega
  rw [this, List.take_append_drop]

/-- Results of the loop over windows from states that differ only in how much of the text has been
handed out; `x` is the difference. -/
inductive OutRel (x : Bytes) : WindowsResult → WindowsResult → Prop
  | fault (f : Fault) : OutRel x (.fault f) (.fault f)
  | error {o o' : Bytes} (h : o <+: x ++ o') : OutRel x (.error o) (.error o')
  | done {L : Level} {r o o' : Bytes} {p : Nat} (h : o ++ L.text = x ++ o' ++ (L.setOut p).text) :
      OutRel x (.done L r o) (.done (L.setOut p) r o')

theorem winRun_setOut {L : Level} (hL : LevelInv L) {p : Nat} (h1 : L.outPos ≤ p)
    (h2 : p ≤ L.decoded.length) (s : Bytes) :
    OutRel ((L.decoded.drop L.outPos).take (p - L.outPos)) (winRun L s) (winRun (L.setOut p) s) := by
  induction hn : s.length using Nat.strongRecOn generalizing L s with
  | _ n ih =>
    rw [winRun_eq hL, winRun_eq (hL.setOut p)]
    by_cases hs : s = []
    · rw [if_pos hs, if_pos hs]
      refine .done ?_
      have := text_setOut h1 h2 []
      simp only [List.append_nil] at this
      simpa [Level.text, Level.setOut] using this
    · rw [if_neg hs, if_neg hs, decodeWindow_setOut]
      cases hd : decodeWindow L s with
      | fault f => exact .fault f
      | error => exact .error (List.nil_prefix)
      | endOfData L1 r1 =>
        obtain ⟨_, _, _, d, k1, k2, _⟩ := decodeWindow_eod hL hd
        simp only [WinResult.setOut]
        refine .done ?_
        have := text_setOut h1 h2 d
        rw [← k1, ← k2] at this
        rw [k2] at this
        simpa [Level.text, Level.setOut, k2] using this
      | ok L1 r1 =>
        obtain ⟨i1, i2, ⟨pre, hpre, hne⟩, d, k1, k2, _⟩ := decodeWindow_ok hL hd
        have htext := text_setOut h1 h2 d
        rw [← k1] at htext
        have e1 : (L1.setOut p).reachedPlanned = L1.reachedPlanned := rfl
        simp only [WinResult.setOut, e1]
        split
        · refine .done ?_
          simpa [Level.text, Level.setOut, k2] using htext
        · have hlt : r1.length < n := by
            have := List.length_pos_iff.2 (hne hs)
            rw [← hn, hpre, List.length_append]
            omega
          by_cases ha : L1.allowTarget = true
          · have n1 : L1.next = (L1, []) := by simp [Level.next, ha]
            have n2 : (L1.setOut p).next = (L1.setOut p, []) := by
              have : (L1.setOut p).allowTarget = true := ha
              simp [Level.next, this]
            rw [n1, n2, WindowsResult.prepend_nil, WindowsResult.prepend_nil]
            have h1' : L1.outPos ≤ p := by rw [k2]; exact h1
            have h2' : p ≤ L1.decoded.length := by rw [k1, List.length_append]; omega
            have := ih _ hlt i1.inv h1' h2' r1 rfl
            have hx : (L1.decoded.drop L1.outPos).take (p - L1.outPos) =
                (L.decoded.drop L.outPos).take (p - L.outPos) := by
              rw [k1, k2, List.drop_append_of_le_length (by omega), List.take_append_of_le_length]
              rw [List.length_drop]; omega
            rw [hx] at this
            exact this
          · have ha' : L1.allowTarget = false := by simpa using ha
            have n1 : L1.next = (L1.flush.1, L1.text) := by
              simp [Level.next, ha, Level.flush, Level.text]
            have n2 : (L1.setOut p).next = (L1.flush.1, (L1.setOut p).text) := by
              simp [Level.next, ha', Level.flush, Level.text, Level.setOut]
            rw [n1, n2]
            have ht : L1.text = (L.decoded.drop L.outPos).take (p - L.outPos) ++ (L1.setOut p).text := by
              simpa [Level.text, Level.setOut, k2] using htext
            simp only
            cases winRun L1.flush.1 r1 with
            | fault f => exact .fault f
            | error o =>
              refine .error ?_
              rw [ht, List.append_assoc]
              exact List.prefix_rfl
            | done L2 r2 o2 =>
              have : OutRel ((L.decoded.drop L.outPos).take (p - L.outPos)) (.done L2 r2 (L1.text ++ o2))
                  (.done (L2.setOut L2.outPos) r2 ((L1.setOut p).text ++ o2)) := by
                refine .done ?_
                have : (L2.setOut L2.outPos).text = L2.text := rfl
                rw [this, ht]
                simp
              exact this

/-! ### Results of chunks -/

/-- Decoders that behave in the same way: they differ at most in NOOPs at the front of the innermost
decoder's open window that one of them has skipped. -/
inductive ChainEqv : Level → List Level → Level → List Level → Prop
  | leaf {L L' : Level} (h : WinEqv (L.setUnparsed []) L.unparsed (L'.setUnparsed []) L'.unparsed) :
      ChainEqv L [] L' []
  | node {n n' : Level} {ns ns' : List Level} (L : Level) (h : ChainEqv n ns n' ns') :
      ChainEqv L (n :: ns) L (n' :: ns')

theorem ChainEqv.refl (L : Level) (ns : List Level) : ChainEqv L ns L ns := by
  induction ns generalizing L with
  | nil => exact .leaf (WinEqv.refl _ _)
  | cons n ns ih => exact .node L (ih n)

theorem ChainEqv.symm {L L' : Level} {ns ns' : List Level} (h : ChainEqv L ns L' ns') :
    ChainEqv L' ns' L ns := by
  induction h with
  | leaf h => exact .leaf h.symm
  | node L _ ih => exact .node L ih

theorem ChainEqv.trans {L L' L'' : Level} {ns ns' ns'' : List Level} (h : ChainEqv L ns L' ns')
    (h' : ChainEqv L' ns' L'' ns'') : ChainEqv L ns L'' ns'' := by
  induction h generalizing L'' ns'' with
  | leaf h =>
    cases h' with
    | leaf h' => exact .leaf (h.trans h')
  | node L _ ih =>
    cases h' with
    | node _ h' => exact .node L (ih h')

/-- `coarse` is the result of giving more input at once, `fine` that of the last part of the input
after `p` has been output. -/
inductive ChunkRel (p : Bytes) : (coarse fine : ChunkResult) → Prop
  | fault (f : Fault) : ChunkRel p (.fault f) (.fault f)
  | error (L L' : Level) {o o' : Bytes} (h : o <+: p ++ o') : ChunkRel p (.error L o) (.error L' o')
  | ok {L L' : Level} {ns ns' : List Level} (o : Bytes) (h : ChainEqv L ns L' ns') :
      ChunkRel p (.ok L ns (p ++ o)) (.ok L' ns' o)

theorem ChunkRel.refl (x : ChunkResult) : ChunkRel [] x x := by
  cases x with
  | ok L ns o => exact .ok o (ChainEqv.refl L ns)
  | error L o => exact .error L L (List.prefix_rfl)
  | fault f => exact .fault f

/-! ### Windows -/

theorem decodeChunkWindows_eq (L : Level) (s : Bytes) :
    decodeChunkWindows L s = match winRun L s with
      | .fault f => .fault f
      | .error out => .error ({ L with unparsed := [], decoded := [] } : Level).reset out
      | .done L' r out => .ok (L'.ended r) [] (out ++ L'.text) := rfl

theorem decodeChunkWindows_setUnparsed (L : Level) (u s : Bytes) :
    decodeChunkWindows (L.setUnparsed u) s = decodeChunkWindows L s := by
  rw [decodeChunkWindows_eq, decodeChunkWindows_eq, winRun_setUnparsed]
  cases winRun L s <;> rfl

theorem WinEqv.text {L L' : Level} {r r' : Bytes} (h : WinEqv L r L' r') : L.text = L'.text := by
  rw [h.level]; rfl

theorem WinEqv.ended {L L' : Level} {r r' : Bytes} (h : WinEqv L r L' r') :
    ChainEqv (L.ended r) [] (L'.ended r') [] := by
  refine .leaf ⟨?_, h.rest⟩
  rw [h.level]
  rfl

theorem WinEqv.setUnparsed {L L' : Level} {r r' : Bytes} (h : WinEqv L r L' r') (u : Bytes) :
    WinEqv (L.setUnparsed u) r (L'.setUnparsed u) r' := by
  refine ⟨?_, h.rest⟩
  rw [h.level]
  rfl

theorem Quiet.setUnparsed {L : Level} (h : L.Quiet) (u : Bytes) : (L.setUnparsed u).Quiet := by
  unfold Level.Quiet at *
  rw [decodeWindow_setUnparsed, h]
  rfl

theorem windows_congr {L L' : Level} (hL : NodeInv L) (hL' : NodeInv L') {s s' : Bytes}
    (h : WinEqv (L.setUnparsed []) s (L'.setUnparsed []) s') :
    ChunkRel [] (decodeChunkWindows L s) (decodeChunkWindows L' s') := by
  rw [← decodeChunkWindows_setUnparsed L [], ← decodeChunkWindows_setUnparsed L' []]
  have := winRun_congr (hL.inv.setUnparsed []) (Quiet.setUnparsed hL.quiet []) (hL'.inv.setUnparsed [])
    (Quiet.setUnparsed hL'.quiet []) h
  rw [decodeChunkWindows_eq, decodeChunkWindows_eq]
  generalize winRun (L.setUnparsed []) s = x at this
  generalize winRun (L'.setUnparsed []) s' = y at this
  cases this with
  | fault f => exact .fault f
  | error o => exact .error _ _ List.prefix_rfl
  | @done L1 L1' r1 r1' o h =>
    simp only
    rw [h.text]
    exact .ok _ h.ended

theorem ended_setOut (L : Level) (p : Nat) (r : Bytes) : (L.setOut p).ended r = L.ended r := rfl

theorem windows_split {L : Level} (hL : NodeInv L) (hnd : L.win = none → L.reachedPlanned = false)
    (a b : Bytes) :
    (∃ f, decodeChunkWindows L a = .fault f ∧ decodeChunkWindows L (a ++ b) = .fault f) ∨
    (∃ L' o, decodeChunkWindows L a = .error L' o ∧ decodeChunkWindows L (a ++ b) = .error L' o) ∨
    ∃ L1 o1, decodeChunkWindows L a = .ok L1 [] o1 ∧
      ((L1.Done ∧ decodeChunkWindows L (a ++ b) = .ok (L1.setUnparsed (L1.unparsed ++ b)) [] o1) ∨
       (¬ L1.Done ∧
          ChunkRel o1 (decodeChunkWindows L (a ++ b)) (decodeChunkWindows L1 (L1.unparsed ++ b))) ∨
       (L1.unparsed = [] ∧ ∃ L' o, decodeChunkWindows L (a ++ b) = .error L' o ∧ o <+: o1 ∧
          (L.win = none → L.allowExtensions = true))) := by
  have hout := Nat.le_of_eq hL.out
  have e1 := decodeChunkWindows_eq L a
  have e2 := decodeChunkWindows_eq L (a ++ b)
  rcases winRun_split hL.inv hL.quiet hnd a b with ⟨f, h1, h2⟩ | ⟨o, h1, h2⟩ | ⟨L1, r1, o1, h1, h2⟩
  · rw [h1] at e1; rw [h2] at e2
    exact Or.inl ⟨f, e1, e2⟩
  · rw [h1] at e1; rw [h2] at e2
    exact Or.inr (Or.inl ⟨_, _, e1, e2⟩)
  · right; right
    rw [h1] at e1
    refine ⟨_, _, e1, ?_⟩
    rcases h2 with ⟨k1, k2, k3⟩ | ⟨k0, k⟩ | ⟨k0, o, k1, ⟨o', k2⟩, k3⟩
    · rw [k3] at e2
      exact Or.inl ⟨⟨k1, k2⟩, e2⟩
    · right; left
      refine ⟨?_, ?_⟩
      · rintro ⟨d1, d2⟩
        have h1 : L1.reachedPlanned = false := k0 d2
        have h2 : L1.reachedPlanned = true := d1
        rw [h1] at h2
        simp at h2
      obtain ⟨j1, _⟩ := (winRun_inv hL.inv hout a).1 _ _ _ h1
      have hfine : decodeChunkWindows (L1.ended r1) ((L1.ended r1).unparsed ++ b) =
          decodeChunkWindows (L1.setOut L1.decoded.length) (r1 ++ b) :=
        decodeChunkWindows_setUnparsed (L1.setOut L1.decoded.length) r1 (r1 ++ b)
      rw [hfine, e2, decodeChunkWindows_eq]
      have hr := winRun_setOut j1.inv (j1.out hout) (Nat.le_refl _) (r1 ++ b)
      have hx : (L1.decoded.drop L1.outPos).take (L1.decoded.length - L1.outPos) = L1.text := by
        rw [← List.length_drop, List.take_length]; rfl
      rw [hx] at hr
      generalize winRun L (a ++ b) = X at k
      generalize winRun L1 (r1 ++ b) = Y at k hr
      generalize winRun (L1.setOut L1.decoded.length) (r1 ++ b) = Z at hr
      cases hr with
      | fault f =>
        cases k
        exact .fault f
      | @error o o' h =>
        cases k
        refine .error _ _ ?_
        obtain ⟨t, ht⟩ := h
        exact ⟨t, by rw [List.append_assoc, List.append_assoc, ← ht]⟩
      | @done L2 r2 o o' p h =>
        cases k with
        | @done Lc _ rc _ _ hk =>
          simp only
          have : o1 ++ o ++ Lc.text = (o1 ++ L1.text) ++ (o' ++ (L2.setOut p).text) := by
            rw [hk.text, List.append_assoc, h]
            simp
          rw [this, ended_setOut]
          exact .ok _ hk.ended
    · right; right
      rw [k1] at e2
      exact ⟨k0, _, _, e2, ⟨o', k2.symm⟩, k3⟩

/-! ### Code tables -/

/-- The table in use after the nested decoder has produced `str` (`UseCodeTable`). -/
def tableFrom (L : Level) (str : Bytes) : CodeTable :=
  if h : str.length = codeTableSize then
    if (CodeTable.ofBytes str h).validate ((L.cache.map AddrCache.lastMode).getD 0) then
      CodeTable.ofBytes str h
    else L.table
  else L.table

theorem table_cases {L n n' : Level} {ns ns' : List Level} {s text : Bytes} (hd : L.decoded = [])
    (hstr : L.tableString = n.decoded) (hn : NestInv n ns) (hr : ChunkOk n ns s n' ns' text) :
    (n'.decoded.length < codeTableSize ∧ afterCodeTableChunk L n' ns' s text =
      .ok { L with tableString := n'.decoded, unparsed := [], outPos := 0 } (n' :: ns') []) ∨
    (n'.decoded.length = codeTableSize ∧ n'.Done ∧ ns' = [] ∧ n'.cache ≠ none ∧
      afterCodeTableChunk L n' ns' s text =
        decodeChunkWindows { L with tableString := [], table := tableFrom L n'.decoded } n'.unparsed) := by
  have hkept := hr.kept hn.target
  have htotal := hr.total
  rw [hn.total] at htotal
  have hle := hr.plan _ hn.planned hn.max
  have hlen : n'.decoded.length = n.decoded.length + text.length := by rw [hkept, List.length_append]
  have hstr' : L.tableString ++ text = n'.decoded := by rw [hstr, hkept]
  have hpl : n'.planned = some codeTableSize := hr.config.planned.trans hn.planned
  have hnode := hr.inv.node
  unfold afterCodeTableChunk
  dsimp only
  rw [hstr']
  by_cases hlt : n'.decoded.length < codeTableSize
  · rw [if_pos hlt]
    left
    refine ⟨hlt, ?_⟩
    simp [endChunk, Level.appendNewOutput, hd]
  · rw [if_neg hlt]
    right
    have heq : n'.decoded.length = codeTableSize := by omega
    have howed : n'.owed = 0 := by omega
    have hwn : n'.win = none := by
      cases hx : n'.win with
      | none => rfl
      | some w =>
        have := (hnode.inv.opened w hx).2.1
        simp only [Level.owed, hx] at howed
        omega
    have hreach : n'.reachedPlanned = true := by
      simp only [Level.reachedPlanned, hpl, decide_eq_true_eq]
      omega
    have hcn : n'.cache ≠ none := by
      intro hx
      have := (hnode.fresh hx).2.1
      rw [this] at heq
      simp [codeTableSize] at heq
    have hns : ns' = [] := by
      cases ns' with
      | nil => rfl
      | cons m ms =>
        have := hr.inv.2.1.decoded
        rw [this] at heq
        simp [codeTableSize] at heq
    subst hns
    have hcomp : n'.isComplete (!([] : List Level).isEmpty) = true := by
      unfold Level.isComplete
      cases hx : n'.cache with
      | none => exact absurd hx hcn
      | some c => simp [hwn, hreach]
    rw [hcomp]
    have hb := hr.bound hn.waits ⟨hreach, hwn⟩
    obtain ⟨pre, hpre⟩ := hr.suffix
    have hnlt : ¬ n'.unparsed.length > s.length := by omega
    simp only [Bool.not_true, Bool.false_eq_true, if_false, dif_pos heq, if_neg hnlt]
    refine ⟨heq, ⟨hreach, hwn⟩, trivial, hcn, ?_⟩
    have hrest : s.drop (s.length - n'.unparsed.length) = n'.unparsed := by
      have hl := congrArg List.length hpre
      rw [List.length_append, List.length_append] at hl
      have h1 : (n.unparsed ++ s).drop pre.length = n'.unparsed := by rw [hpre, List.drop_left]
      rw [List.drop_append, List.drop_eq_nil_of_le (by omega), List.nil_append] at h1
      have : s.length - n'.unparsed.length = pre.length - n.unparsed.length := by omega
      rw [this]
      exact h1
    rw [hrest, tableFrom, dif_pos heq]

theorem chunkRun_windows {L : Level} (hL : NodeInv L) (hc : L.cache ≠ none) (data : Bytes) :
    chunkRun L [] data = decodeChunkWindows L (L.unparsed ++ data) := by
  rw [chunkRun_eq, chunkStep, if_neg (by rw [hL.started]; simp)]
  cases hx : L.cache with
  | none => exact absurd hx hc
  | some c => rfl

theorem chunkRun_nested {L n : Level} {ns : List Level} (hL : NodeInv L) (hc : L.cache ≠ none)
    (data : Bytes) :
    chunkRun L (n :: ns) data = tableStep chunkRun L (n :: ns) (L.unparsed ++ data) := by
  rw [chunkRun_eq, chunkStep, if_neg (by rw [hL.started]; simp)]
  cases hx : L.cache with
  | none => exact absurd hx hc
  | some c => rfl

theorem ChainEqv.decoded {L L' : Level} {ns ns' : List Level} (h : ChainEqv L ns L' ns') :
    L.decoded = L'.decoded := by
  cases h with
  | leaf h =>
    have := congrArg Level.decoded h.level
    exact this.symm
  | node => rfl

theorem ChainEqv.closed {L L' : Level} {ns' : List Level} (h : ChainEqv L [] L' ns') (hw : L.win = none) :
    L' = L ∧ ns' = [] := by
  cases h with
  | leaf h =>
    refine ⟨?_, rfl⟩
    rcases h.rest with ⟨h1, h2, h3⟩ | ⟨w, _, h1, _⟩
    · have e1 : L' = (L'.setUnparsed []).setUnparsed L'.unparsed := rfl
      rw [e1, h.level, h2, ← h3]
      have : (L.setUnparsed []).win = none := hw
      rw [← this]
      rfl
    · have : L.win = some w := h1
      rw [hw] at this
      simp at this

theorem ChainEqv.cache {L L' : Level} {ns ns' : List Level} (h : ChainEqv L ns L' ns') :
    (L.cache = none → L'.cache = none) := by
  cases h with
  | leaf h =>
    have := congrArg Level.cache h.level
    intro hx
    exact this.trans hx
  | node => exact id

/-- Equivalent decoders go on in the same way. -/
theorem chunk_congr {L L' : Level} {ns ns' : List Level} (h : ChainEqv L ns L' ns')
    (hL : ChainInv L ns) (hL' : ChainInv L' ns') (data : Bytes) :
    ChunkRel [] (chunkRun L ns data) (chunkRun L' ns' data) := by
  induction h generalizing data with
  | @leaf L L' h =>
    by_cases hc : L.cache = none
    · have hw := (hL.node.fresh hc).1
      obtain ⟨rfl, _⟩ := (ChainEqv.leaf h).closed hw
      exact ChunkRel.refl _
    · have hc' : L'.cache ≠ none := fun hx => hc ((ChainEqv.leaf h).symm.cache hx)
      rw [chunkRun_windows hL.node hc, chunkRun_windows hL'.node hc']
      exact windows_congr hL.node hL'.node (h.append data)
  | @node n n' ns ns' L h ih =>
    obtain ⟨h1, h2, h3, h4⟩ := hL
    obtain ⟨_, h2', h3', h4'⟩ := hL'
    rw [chunkRun_nested h1 h2.cache, chunkRun_nested h1 h2.cache]
    have hr := ih h4 h4' (L.unparsed ++ data)
    have k := (chunk_inv h4 (L.unparsed ++ data)).1
    have k' := (chunk_inv h4' (L.unparsed ++ data)).1
    rw [tableStep, tableStep]
    generalize chunkRun n ns (L.unparsed ++ data) = x at hr k
    generalize chunkRun n' ns' (L.unparsed ++ data) = y at hr k'
    cases hr with
    | fault f => exact .fault f
    | error => exact ChunkRel.refl _
    | @ok m m' ms ms' o h =>
      simp only [List.nil_append]
      have t := table_cases h2.decoded h2.str h3 (k _ _ _ rfl)
      have t' := table_cases h2.decoded h2'.str h3' (k' _ _ _ rfl)
      simp only [List.nil_append] at t
      have hdec := h.decoded
      rcases t with ⟨a1, a2⟩ | ⟨a1, a2, a3, a4, a5⟩ <;> rcases t' with ⟨b1, b2⟩ | ⟨b1, b2, b3, b4, b5⟩
      · rw [a2, b2, hdec]
        exact .ok [] (.node _ h)
      · rw [hdec] at a1; omega
      · rw [hdec] at a1; omega
      · subst a3
        obtain ⟨rfl, _⟩ := h.closed a2.2
        rw [a5, b5]
        exact ChunkRel.refl _

/-! ### Splitting -/

/-- How the result `y` for `a ++ b` follows from the result `x` for `a`. -/
def Split (closed : Prop) (x y : ChunkResult) (b : Bytes) : Prop :=
  (∃ f, x = .fault f ∧ y = .fault f) ∨
  (∃ L' L'' o, x = .error L' o ∧ y = .error L'' o) ∨
  ∃ L1 ns1 o1, x = .ok L1 ns1 o1 ∧
    ((L1.Done ∧ ns1 = [] ∧ L1.cache ≠ none ∧ y = .ok (L1.setUnparsed (L1.unparsed ++ b)) [] o1) ∨
     ((ns1 = [] → ¬ L1.Done) ∧ ChunkRel o1 y (chunkRun L1 ns1 b)) ∨
     ((ns1 = [] → L1.unparsed = []) ∧ ∃ L' o, y = .error L' o ∧ o <+: o1 ∧ (ns1 = [] → closed → L1.allowExtensions = true)))

theorem Split.imp {p q : Prop} {x y : ChunkResult} {b : Bytes} (h : Split p x y b) (hpq : q → p) :
    Split q x y b := by
  rcases h with h | h | ⟨L1, ns1, o1, h1, h2⟩
  · exact Or.inl h
  · exact Or.inr (Or.inl h)
  · refine Or.inr (Or.inr ⟨L1, ns1, o1, h1, ?_⟩)
    rcases h2 with h2 | h2 | ⟨k0, L', o, k1, k2, k3⟩
    · exact Or.inl h2
    · exact Or.inr (Or.inl h2)
    · exact Or.inr (Or.inr ⟨k0, L', o, k1, k2, fun a b => k3 a (hpq b)⟩)

theorem windows_Split {L : Level} (hL : NodeInv L) (hnd : L.win = none → L.reachedPlanned = false) (hc : L.cache ≠ none) (a b : Bytes) :
    Split (L.win = none) (decodeChunkWindows L a) (decodeChunkWindows L (a ++ b)) b := by
  rcases windows_split hL hnd a b with h | ⟨L', o, h1, h2⟩ | ⟨L1, o1, h1, h2⟩
  · exact Or.inl h
  · exact Or.inr (Or.inl ⟨L', L', o, h1, h2⟩)
  · refine Or.inr (Or.inr ⟨L1, [], o1, h1, ?_⟩)
    obtain ⟨_, k2, _, _, _, _, _, _, _, _, _, k3, k4⟩ := (windows_inv hL hc a).1 _ _ _ h1
    have hc1 : L1.cache ≠ none := by
      cases hx : L.cache with
      | none => exact absurd hx hc
      | some c =>
        obtain ⟨c', h, _⟩ := k4 c hx
        rw [h]; simp
    rcases h2 with ⟨h2, h3⟩ | ⟨h0, h2⟩ | ⟨j0, L', o, j1, j2, j3⟩
    · exact Or.inl ⟨h2, rfl, hc1, h3⟩
    · refine Or.inr (Or.inl ⟨fun _ => h0, ?_⟩)
      rw [chunkRun_windows k2 hc1]
      exact h2
    · refine Or.inr (Or.inr ⟨fun _ => j0, L', o, j1, j2, fun _ hx => ?_⟩)
      have := j3 hx
      unfold Level.allowExtensions at *
      rw [k3]
      exact this

/-- A level that waits for a nested decoder, with input `s` and then `b`. -/
theorem nested_Split {L n : Level} {ns : List Level} {s b : Bytes} (hL : NodeInv L) (hc : L.cache ≠ none)
    (hd : L.decoded = []) (hw : L.win = none) (ht : L.total = 0)
    (hnd : L.reachedPlanned = false) (hstr : L.tableString = n.decoded)
    (hn : NestInv n ns) (hch : ChainInv n ns)
    (hsp : Split False (chunkRun n ns s) (chunkRun n ns (s ++ b)) b) :
    Split False (tableStep chunkRun L (n :: ns) s) (tableStep chunkRun L (n :: ns) (s ++ b)) b := by
  have hout : L.outPos = 0 := by rw [hL.out, hd]; rfl
  rw [tableStep, tableStep]
  have k := (chunk_inv hch s).1
  have kk := (chunk_inv hch (s ++ b)).1
  rcases hsp with ⟨f, h1, h2⟩ | ⟨L', L'', o, h1, h2⟩ | ⟨n1, ns1, t1, h1, h2⟩
  · rw [h1, h2]
    exact Or.inl ⟨f, rfl, rfl⟩
  · rw [h1, h2]
    exact Or.inr (Or.inl ⟨_, _, _, rfl, rfl⟩)
  · have hr := k _ _ _ h1
    rw [h1]
    simp only
    have hcases := table_cases hd hstr hn hr
    rcases hcases with ⟨a1, a2⟩ | ⟨a1, a2, a3, a4, a5⟩
    · rw [a2]
      refine Or.inr (Or.inr ⟨_, _, _, rfl, ?_⟩)
      rcases table_inv hL hc hd hw ht hstr hn hr with ⟨L1, g1, g2, g3, g4, g5⟩ | ⟨t, rest, pre, g1, g2⟩
      · rw [a2] at g1
        simp only [ChunkResult.ok.injEq, and_true] at g1
        rw [g1]
        have hch1 := hr.inv
        rcases h2 with ⟨d1, _⟩ | ⟨_, h2⟩ | ⟨_, L', o, e1, _, _⟩
        · exfalso
          have := g5.waits.notDone d1.2
          rw [d1.1] at this
          simp at this
        · refine Or.inr (Or.inl ⟨by simp, ?_⟩)
          rw [chunkRun_nested g3 g4.cache, g4.unparsed, List.nil_append, tableStep]
          have k' := (chunk_inv hch1 b).1
          generalize chunkRun n ns (s ++ b) = x at h2 kk
          generalize chunkRun n1 ns1 b = y at h2 k'
          cases h2 with
          | fault f => exact .fault f
          | error => exact .error _ _ List.prefix_rfl
          | @ok m m' ms ms' o h =>
            simp only
            have hdec := h.decoded
            have hL1 : L1 = { L with tableString := n1.decoded, unparsed := [], outPos := 0 } := g1.symm
            rcases table_cases hd hstr hn (kk _ _ _ rfl) with ⟨p1, p2⟩ | ⟨p1, p2, p3, p4, p5⟩ <;>
            rcases table_cases g4.decoded g4.str g5 (k' _ _ _ rfl) with ⟨q1, q2⟩ | ⟨q1, q2, q3, q4, q5⟩
            · rw [p2, q2, hdec, hL1]
              exact .ok [] (.node _ h)
            · rw [hdec] at p1; omega
            · rw [hdec] at p1; omega
            · subst p3
              obtain ⟨rfl, _⟩ := h.closed p2.2
              rw [p5, q5]
              have e1 : tableFrom L1 m'.decoded = tableFrom L m'.decoded := by rw [hL1]; rfl
              have e2 : ({ L1 with tableString := [], table := tableFrom L1 m'.decoded } : Level) =
                  ({ L with tableString := [], table := tableFrom L m'.decoded } : Level).setUnparsed [] := by
                rw [e1, hL1]
                unfold Level.setUnparsed
                simp only [hout]
              rw [e2, decodeChunkWindows_setUnparsed]
              exact ChunkRel.refl _
        · refine Or.inr (Or.inr ?_)
          rw [e1]
          exact ⟨by simp, _, _, rfl, List.prefix_rfl, by simp⟩
      · -- the nested decoder is not complete
        exfalso
        rw [a2, decodeChunkWindows_eq] at g1
        cases hx : winRun { L with tableString := [], table := t } rest <;> simp [hx] at g1
    · have hwin : ({ L with tableString := [], table := tableFrom L n1.decoded } : Level).win = none := hw
      have hnode := hL.closed_windows hw hc (tableFrom L n1.decoded) []
      have hnd' : ({ L with tableString := [], table := tableFrom L n1.decoded } : Level).win = none →
          ({ L with tableString := [], table := tableFrom L n1.decoded } : Level).reachedPlanned = false :=
        fun _ => hnd
      have hsplit := windows_Split hnode hnd' hc n1.unparsed b
      rw [a5]
      rcases h2 with ⟨_, _, _, hco⟩ | ⟨h0, _⟩ | ⟨h0, L', o, e1, _, e3⟩
      · rw [hco]
        simp only
        rcases table_cases hd hstr hn (kk _ _ _ hco) with ⟨p1, p2⟩ | ⟨p1, p2, p3, p4, p5⟩
        · have : (n1.setUnparsed (n1.unparsed ++ b)).decoded = n1.decoded := rfl
          rw [this] at p1
          omega
        · rw [p5]
          exact hsplit.imp fun hx => hx.elim
      · exact absurd a2 (h0 a3)
      · -- the last window of the code table has excess bytes
        rw [e1, h0 a3]
        simp only
        refine Or.inr (Or.inr ?_)
        have e : decodeChunkWindows { L with tableString := [], table := tableFrom L n1.decoded } [] =
            .ok (({ L with tableString := [], table := tableFrom L n1.decoded } : Level).ended []) [] [] := by
          rw [decodeChunkWindows_eq, winRun_eq hnode.inv]
          simp [Level.text, hd]
        rw [e]
        exact ⟨_, _, _, rfl, Or.inr (Or.inr ⟨fun _ => rfl, _, _, rfl, List.prefix_rfl, fun _ hx => hx.elim⟩)⟩

/-- `DecodeChunk` when its input is extended. -/
theorem chunk_split {L : Level} {ns : List Level} (h : ChainInv L ns)
    (hnd : L.win = none → L.reachedPlanned = false) (a b : Bytes) :
    Split (ns = [] ∧ L.win = none ∧
      (L.cache = none → ∀ hdr rest, readFileHeader (L.unparsed ++ a) = .ok hdr rest → hdr.caches = none))
      (chunkRun L ns a) (chunkRun L ns (a ++ b)) b := by
  induction hn : chunkDepth L ns a using Nat.strongRecOn generalizing L ns a with
  | _ k ih =>
    subst hn
    have hL := h.node
    cases hc : L.cache with
    | some c =>
      have hcn : L.cache ≠ none := by rw [hc]; simp
      cases ns with
      | nil =>
        rw [chunkRun_windows hL hcn, chunkRun_windows hL hcn, ← List.append_assoc]
        exact (windows_Split hL hnd hcn _ b).imp fun hx => hx.2.1
      | cons n ns =>
        obtain ⟨_, hwait, hnest, hchain⟩ := h
        rw [chunkRun_nested hL hcn, chunkRun_nested hL hcn, ← List.append_assoc]
        have hlt : chunkDepth n ns (L.unparsed ++ a) < chunkDepth L (n :: ns) a := by
          simp only [chunkDepth, List.map_cons, List.sum_cons, List.length_append]
          omega
        have hsp := ih _ hlt hchain hnest.waits.notDone (L.unparsed ++ a) rfl
        have := nested_Split hL hcn hwait.decoded hwait.win hwait.total (hnd hwait.win) hwait.str hnest hchain (hsp.imp False.elim)
        exact this.imp fun hx => by simp at hx
    | none =>
      have hns : ns = [] := h.none hc
      subst hns
      have hw := (hL.fresh hc).1
      have e1 := chunkRun_eq L [] a
      have e2 := chunkRun_eq L [] (a ++ b)
      rw [chunkStep, if_neg (by rw [hL.started]; simp)] at e1 e2
      simp only [hc] at e1 e2
      cases hh : readFileHeader (L.unparsed ++ a) with
      | error =>
        have hh2 := Local.readFileHeader.stable.error hh b
        rw [List.append_assoc] at hh2
        simp only [hh] at e1
        simp only [hh2] at e2
        exact Or.inr (Or.inl ⟨_, _, _, e1, e2⟩)
      | endOfData =>
        have hr := chunk_inv h a
        simp only [hh] at e1
        have e1' : chunkRun L [] a = .ok (L.ended (L.unparsed ++ a)) [] ([] ++ L.text) := e1
        have hok := hr.1 _ _ _ e1'
        rcases hok.plain hc with ⟨_, p2, _⟩ | ⟨hdr, rest, p1, _⟩
        · refine Or.inr (Or.inr ⟨_, _, _, e1', Or.inr (Or.inl ⟨fun _ => ?_, ?_⟩)⟩)
          · rintro ⟨d1, d2⟩
            have h1 : L.reachedPlanned = true := d1
            rw [hnd hw] at h1
            simp at h1
          · have ht : L.text = [] := by simp [Level.text, (hL.fresh hc).2.1]
            rw [ht, p2]
            have e3 := chunkRun_eq (L.setUnparsed (L.unparsed ++ a)) [] b
            rw [chunkStep] at e3
            have hst : ¬ (L.setUnparsed (L.unparsed ++ a)).started = false := by
              have : (L.setUnparsed (L.unparsed ++ a)).started = true := hL.started
              rw [this]; simp
            have hcc : (L.setUnparsed (L.unparsed ++ a)).cache = none := hc
            have hu : (L.setUnparsed (L.unparsed ++ a)).unparsed = L.unparsed ++ a := rfl
            rw [if_neg hst] at e3
            simp only [hcc, hu] at e3
            rw [List.append_assoc] at e3
            have : chunkRun (L.setUnparsed (L.unparsed ++ a)) [] b = chunkRun L [] (a ++ b) := by
              rw [e2, e3]
              cases readFileHeader (L.unparsed ++ (a ++ b)) with
              | error => rfl
              | endOfData => rfl
              | ok hdr rest =>
                simp only
                obtain ⟨v, cs⟩ := hdr
                cases cs with
                | none => exact decodeChunkWindows_setUnparsed (L.withHeader ⟨v, none⟩) _ _
                | some p =>
                  simp only [nestedFor, tableStep]
                  cases chunkRun Level.forCodeTable [] rest with
                  | fault f => rfl
                  | error => rfl
                  | ok n' ns' text =>
                    simp only
                    unfold afterCodeTableChunk
                    dsimp only
                    have q1 : ((L.setUnparsed (L.unparsed ++ a)).withHeader ⟨v, some p⟩).tableString =
                      (L.withHeader ⟨v, some p⟩).tableString := rfl
                    rw [q1]
                    split
                    · rfl
                    · split
                      · rfl
                      · split
                        · split
                          · rfl
                          · have q2 : ((L.setUnparsed (L.unparsed ++ a)).withHeader ⟨v, some p⟩).cache =
                              (L.withHeader ⟨v, some p⟩).cache := rfl
                            have q3 : ((L.setUnparsed (L.unparsed ++ a)).withHeader ⟨v, some p⟩).table =
                              (L.withHeader ⟨v, some p⟩).table := rfl
                            rw [q2, q3]
                            exact decodeChunkWindows_setUnparsed { L.withHeader ⟨v, some p⟩ with
                              tableString := [], table := _ } _ _
                        · rfl
            rw [this]
            exact ChunkRel.refl _
        · rw [hh] at p1
          simp at p1
      | ok hdr rest =>
        have hh2 := (Local.readFileHeader.stable.ok hh).2 b
        rw [List.append_assoc] at hh2
        simp only [hh] at e1
        simp only [hh2] at e2
        rw [e1, e2]
        obtain ⟨i1, i2, i3, i4, i5, i6, i7, i8, i9⟩ := withHeader_inv hL hc hdr
        have hnd' : (L.withHeader hdr).reachedPlanned = false := by
          have h1 := hnd hw
          unfold Level.reachedPlanned at h1 ⊢
          rw [i9.planned, i5]
          rw [(hL.fresh hc).2.2] at h1
          exact h1
        cases hcs : hdr.caches with
        | none =>
          have e3 : nestedFor hdr [] = [] := by simp [nestedFor, hcs]
          rw [e3, tableStep, tableStep]
          exact (windows_Split i1 (fun _ => hnd') i2 rest b).imp fun _ => i4
        | some p =>
          have e3 : nestedFor hdr [] = [Level.forCodeTable] := by simp [nestedFor, hcs]
          rw [e3]
          obtain ⟨_, hnest, hchain⟩ := forCodeTable_inv
          obtain ⟨pre, p1, p2⟩ := readFileHeader_ok_pre hh
          have hlt : chunkDepth Level.forCodeTable [] rest < chunkDepth L [] a := by
            have hl := congrArg List.length p1
            simp only [List.length_append] at hl
            have : Level.forCodeTable.unparsed = [] := rfl
            simp only [chunkDepth, List.map_cons, List.sum_cons, List.map_nil, List.sum_nil, this,
              List.length_nil]
            omega
          have hstr : (L.withHeader hdr).tableString = Level.forCodeTable.decoded := by
            simp only [Level.withHeader, hcs]; rfl
          have hsp := ih _ hlt hchain hnest.waits.notDone rest rfl
          have := nested_Split i1 i2 i3 i4 i5 hnd' hstr hnest hchain (hsp.imp False.elim)
          refine this.imp fun hx => ?_
          have := hx.2.2 rfl _ _ rfl
          rw [hcs] at this
          simp at this

end Vcd
