import Verif.Proof.Sessions

/-!
# Ways of delivering a delta
-/

namespace Vcd
open Spec

theorem decode_some {d : Decoder} {dict out : Bytes} {cs : List Bytes} :
    d.decode dict cs = some out ↔ ∃ e, (d.start dict).feed cs = some (out, e) ∧ e.finish.1 = true := by
  unfold Decoder.decode
  cases h : (d.start dict).feed cs with
  | none => simp
  | some p =>
    obtain ⟨o, e⟩ := p
    simp only [Option.some.injEq, Prod.mk.injEq]
    constructor
    · intro hx
      split at hx
      · rename_i hf
        simp only [Option.some.injEq] at hx
        exact ⟨e, ⟨hx, rfl⟩, hf⟩
      · simp at hx
    · rintro ⟨e', ⟨rfl, rfl⟩, hf⟩
      rw [if_pos hf]

theorem decode_refine {d : Decoder} (hd : d.top.started = false) {dict out : Bytes} {css : List (List Bytes)}
    (h : d.decode dict (css.map List.flatten) = some out) : d.decode dict css.flatten = some out := by
  obtain ⟨e, h1, h2⟩ := decode_some.1 h
  have hf := Fed.start d hd dict
  obtain ⟨e', h3, h4⟩ := feed_refine_all hf h1
  refine decode_some.2 ⟨e', h3, ?_⟩
  rw [← h4.finish (hf.feed h1) (hf.feed h3)]
  exact h2

/-- The delivery of single bytes. -/
def singles (s : Bytes) : List Bytes := s.map fun b => [b]

theorem singles_flatten (s : Bytes) : (singles s).flatten = s := by
  induction s with
  | nil => rfl
  | cons b s ih => simp only [singles, List.map_cons, List.flatten_cons] at ih ⊢; rw [ih]; rfl

theorem map_singles_flatten (cs : List Bytes) : (cs.map singles).map List.flatten = cs := by
  rw [List.map_map]
  have : (List.flatten ∘ singles) = id := by funext s; exact singles_flatten s
  rw [this, List.map_id]

theorem flatten_map_singles (cs : List Bytes) : (cs.map singles).flatten = singles cs.flatten := by
  induction cs with
  | nil => rfl
  | cons c cs ih => rw [List.map_cons, List.flatten_cons, ih, List.flatten_cons]; simp [singles]

theorem decode_singles {d : Decoder} (hd : d.top.started = false) {dict out : Bytes} {cs : List Bytes}
    (h : d.decode dict cs = some out) : d.decode dict (singles cs.flatten) = some out := by
  rw [← flatten_map_singles]
  apply decode_refine hd
  rw [map_singles_flatten]
  exact h

/-! ### Standard format -/

theorem winRun_std {L : Level} (hL : LevelInv L) (hw : L.win = none) (hx : L.allowExtensions = false)
    {s r out : Bytes} {L' : Level} (h : winRun L s = .done L' r out) : L'.win = none := by
  induction hn : s.length using Nat.strongRecOn generalizing L L' s r out with
  | _ n ih =>
    rw [winRun_eq hL] at h
    by_cases hs : s = []
    · rw [if_pos hs] at h
      simp only [WindowsResult.done.injEq] at h
      rw [← h.1]; exact hw
    rw [if_neg hs] at h
    cases hd : decodeWindow L s with
    | fault f => simp [hd] at h
    | error => simp [hd] at h
    | endOfData L1 r1 =>
      simp only [hd, WindowsResult.done.injEq] at h
      rcases (decodeWindow_inv hL s).2.1 _ _ hd with ⟨_, h2, _⟩ | ⟨_, _, _, h2, _⟩
      · rw [← h.1, h2]; exact hw
      · obtain ⟨hdr, rest, h3, _, h4⟩ := h2 hw
        have := ((readHeader_ok h3).2.2.2.2.2.2.1 h4).1
        rw [hx] at this
        simp at this
    | ok L1 r1 =>
      simp only [hd] at h
      obtain ⟨i1, i2, ⟨pre, hp1, hp2⟩, ⟨c, dd, tot, _, hL1, _⟩, _⟩ := (decodeWindow_inv hL s).1 _ _ hd
      have hv : L1.version = L.version := by rw [hL1]; rfl
      split at h
      · simp only [WindowsResult.done.injEq] at h
        rw [← h.1]; exact i2
      · cases hr : winRun L1.next.1 r1 with
        | fault f => simp [hr, WindowsResult.prepend] at h
        | error o => simp [hr, WindowsResult.prepend] at h
        | done L2 r2 o2 =>
          simp only [hr, WindowsResult.prepend, WindowsResult.done.injEq] at h
          rw [← h.1]
          have hlen : r1.length < n := by
            subst hn
            have := congrArg List.length hp1
            rw [List.length_append] at this
            have : pre.length ≠ 0 := fun h0 => hp2 hs (List.eq_nil_of_length_eq_zero h0)
            omega
          refine ih _ hlen (i1.next i2) ?_ ?_ hr rfl
          · unfold Level.next; split
            · exact i2
            · exact i2
          · have : L1.next.1.version = L1.version := by unfold Level.next; split <;> rfl
            unfold Level.allowExtensions at hx ⊢
            rw [this, hv]; exact hx

/-- State after the bytes `s` of a file in the standard format without a custom code table. -/
structure StdInv (d : Decoder) (s : Bytes) : Prop where
  nested : d.nested = []
  win : d.top.win = none
  fresh : d.top.cache = none → d.top.unparsed = s
  ext : d.top.cache ≠ none → d.top.allowExtensions = false

theorem StdInv.hdr {d : Decoder} {s data : Bytes} (h : StdInv d s) (hc : d.top.cache = none)
    (hx : ¬ Extended (s ++ data)) (hp : ¬ CustomTable (s ++ data)) :
    ∀ hdr rest, readFileHeader (d.top.unparsed ++ data) = .ok hdr rest → hdr.version ≠ 0x53 ∧ hdr.caches = none := by
  intro hdr rest hr
  rw [h.fresh hc] at hr
  obtain ⟨h1, h2⟩ := readFileHeader_info hr
  refine ⟨fun hv => hx ?_, h2 hp⟩
  rw [hv] at h1
  exact h1

theorem StdInv.chunk {d : Decoder} {s data o : Bytes} {L : Level} {ns : List Level} (h : StdInv d s) (hd : Fed d)
    (hx : ¬ Extended (s ++ data)) (hp : ¬ CustomTable (s ++ data))
    (hr : chunkRun d.top d.nested data = .ok L ns o) : StdInv { top := L, nested := ns } (s ++ data) := by
  have hf := (chunk_inv hd.chain data).1 _ _ _ hr
  have hL := hd.chain.node
  cases hc : d.top.cache with
  | none =>
    have hh := h.hdr hc hx hp
    rcases hf.plain hc with ⟨_, p2, p3⟩ | ⟨hdr, rest, p1, p2, p3, p4⟩
    · subst p2
      subst p3
      refine ⟨rfl, h.win, fun _ => ?_, fun hx => absurd hc hx⟩
      change d.top.unparsed ++ data = s ++ data
      rw [h.fresh hc]
    · obtain ⟨h1, h2⟩ := hh _ _ p1
      have hext : L.allowExtensions = false := by
        unfold Level.allowExtensions
        rw [p2]
        simpa using h1
      refine ⟨(p4 h2).1, ?_, fun hx => absurd hx p3, fun _ => hext⟩
      change L.win = none
      rw [h.nested, chunkRun_eq, chunkStep, if_neg (by rw [hL.started]; simp)] at hr
      simp only [hc, p1] at hr
      have hn : nestedFor hdr [] = [] := by simp [nestedFor, h2]
      rw [hn] at hr
      simp only [tableStep] at hr
      have hw := withHeader_inv hL hc hdr
      rw [decodeChunkWindows_eq] at hr
      cases hwr : winRun (d.top.withHeader hdr) rest with
      | fault f => simp [hwr] at hr
      | error o => simp [hwr] at hr
      | done L' r' o' =>
        simp only [hwr, ChunkResult.ok.injEq] at hr
        rw [← hr.1]
        have hwn : (d.top.withHeader hdr).win = none := by
          unfold Level.withHeader
          split <;> exact h.win
        have hwe : (d.top.withHeader hdr).allowExtensions = false := by
          unfold Level.allowExtensions
          have : (d.top.withHeader hdr).version = hdr.version := by unfold Level.withHeader; split <;> rfl
          rw [this]
          simpa using h1
        have := winRun_std hw.1.inv hwn hwe hwr
        exact this
  | some c =>
    have hcn : d.top.cache ≠ none := by rw [hc]; simp
    obtain ⟨q1, _, _, q3, c', q4, _⟩ := hf.near h.nested c hc
    refine ⟨q1, ?_, fun hx => ?_, fun _ => ?_⟩
    · change L.win = none
      rw [h.nested, chunkRun_windows hL hcn, decodeChunkWindows_eq] at hr
      cases hwr : winRun d.top (d.top.unparsed ++ data) with
      | fault f => simp [hwr] at hr
      | error o => simp [hwr] at hr
      | done L' r' o' =>
        simp only [hwr, ChunkResult.ok.injEq] at hr
        rw [← hr.1]
        have := winRun_std hL.inv h.win (h.ext hcn) hwr
        exact this
    · have hx' : L.cache = none := hx
      rw [q4] at hx'; simp at hx'
    · change L.allowExtensions = false
      unfold Level.allowExtensions
      rw [q3]
      exact h.ext hcn

theorem StdInv.start (d : Decoder) (hs : d.top.started = false) (dict : Bytes) : StdInv (d.start dict) [] := by
  have e : d.start dict = { top := d.top.start dict, nested := [] } := by simp [Decoder.start, hs]
  have e2 : d.top.start dict =
      { ({ d.top with unparsed := [], decoded := [] } : Level).reset with dict := dict, started := true } := by
    simp [Level.start, hs]
  rw [e, e2]
  exact ⟨rfl, rfl, fun _ => rfl, fun hx => absurd rfl hx⟩

/-- In the standard format, what several calls accept, one call accepts. -/
theorem feed_coarsen_std {d : Decoder} (hd : Fed d) {xs : List Bytes} {s : Bytes} (hi : StdInv d s)
    (hx : ¬ Extended (s ++ xs.flatten)) (hp : ¬ CustomTable (s ++ xs.flatten)) {e : Decoder} {o : Bytes}
    (h : d.feed xs = some (o, e)) :
    ∃ L ns, chunkRun d.top d.nested xs.flatten = .ok L ns o ∧ DecEqv { top := L, nested := ns } e := by
  induction xs generalizing d o s with
  | nil =>
    simp only [Decoder.feed, Option.some.injEq, Prod.mk.injEq] at h
    obtain ⟨rfl, rfl⟩ := h
    exact ⟨_, _, chunk_empty hd.chain hd.waits, ChainEqv.refl _ _⟩
  | cons a xs ih =>
    obtain ⟨L1, ns1, o1, o2, h1, h2, rfl⟩ := feed_cons_some h
    rw [List.flatten_cons] at hx hp ⊢
    rw [← List.append_assoc] at hx hp
    have hx1 : ¬ Extended (s ++ a) := fun hy => hx (Extended.append hy _)
    have hp1 : ¬ CustomTable (s ++ a) := fun hy => hp (CustomTable.append hy _)
    have hi1 := hi.chunk hd hx1 hp1 h1
    have hfed := hd.next h1
    rcases chunk_split hd.chain (fun _ => hd.notDone) a xs.flatten with
      ⟨f, h3, _⟩ | ⟨_, _, _, h3, _⟩ | ⟨L1', ns1', o1', h3, h4⟩
    · rw [h1] at h3; simp at h3
    · rw [h1] at h3; simp at h3
    · rw [h1] at h3
      simp only [ChunkResult.ok.injEq] at h3
      obtain ⟨rfl, rfl, rfl⟩ := h3
      rcases h4 with ⟨hdone, _⟩ | ⟨_, h4⟩ | ⟨k0, L', o', h4, h5, h6⟩
      · have := hfed.notDone
        have := hdone.1
        simp_all
      · generalize hy : chunkRun d.top d.nested (a ++ xs.flatten) = y at h4
        obtain ⟨L2, ns2, k1, k2⟩ := ih hfed hi1 hx hp h2
        have k1' : chunkRun L1 ns1 xs.flatten = .ok L2 ns2 o2 := k1
        rw [k1'] at h4
        cases h4 with
        | ok _ hh => exact ⟨_, _, rfl, hh.trans k2⟩
      · exfalso
        have hn1 : ns1 = [] := hi1.nested
        have hext := h6 hn1 ⟨hi.nested, hi.win, fun hc hdr rest hr => (hi.hdr hc hx1 hp1 hdr rest hr).2⟩
        by_cases hc1 : L1.cache = none
        · unfold Level.allowExtensions at hext
          -- the header is not complete, so there was nothing to reject
          have hL := hd.chain.node
          have hcd : d.top.cache = none := by
            rcases hcc : d.top.cache with _ | c
            · rfl
            · exact absurd hc1 (((chunk_inv hd.chain a).1 _ _ _ h1).some (by rw [hcc]; simp)).1
          rcases ((chunk_inv hd.chain a).1 _ _ _ h1).plain hcd with ⟨p1, p2, _⟩ | ⟨_, _, _, _, p3, _⟩
          · have hu : a = [] ∧ s = [] := by
              have := k0 hn1
              rw [p2] at this
              have : d.top.unparsed ++ a = [] := this
              rw [hi.fresh hcd] at this
              simp at this
              exact ⟨this.2, this.1⟩
            obtain ⟨rfl, rfl⟩ := hu
            rw [List.nil_append] at h4
            obtain ⟨L2, ns2, k1, k2⟩ := ih hfed hi1 hx hp h2
            have : chunkRun d.top d.nested [] = .ok d.top d.nested [] := chunk_empty hd.chain hd.waits
            rw [this] at h1
            simp only [ChunkResult.ok.injEq] at h1
            obtain ⟨rfl, rfl, rfl⟩ := h1
            have k1' : chunkRun d.top d.nested xs.flatten = .ok L2 ns2 o2 := k1
            rw [k1'] at h4
            simp at h4
          · exact absurd hc1 p3
        · have : L1.allowExtensions = false := hi1.ext hc1
          rw [this] at hext
          simp at hext

theorem StdInv.feed {d e : Decoder} (hd : Fed d) {xs : List Bytes} {s o : Bytes} (hi : StdInv d s)
    (hx : ¬ Extended (s ++ xs.flatten)) (hp : ¬ CustomTable (s ++ xs.flatten)) (h : d.feed xs = some (o, e)) :
    StdInv e (s ++ xs.flatten) := by
  induction xs generalizing d o s with
  | nil =>
    simp only [Decoder.feed, Option.some.injEq, Prod.mk.injEq] at h
    rw [← h.2, List.flatten_nil, List.append_nil]
    exact hi
  | cons a xs ih =>
    obtain ⟨L1, ns1, o1, o2, h1, h2, rfl⟩ := feed_cons_some h
    rw [List.flatten_cons, ← List.append_assoc] at hx hp ⊢
    have hx1 : ¬ Extended (s ++ a) := fun hy => hx (Extended.append hy _)
    have hp1 : ¬ CustomTable (s ++ a) := fun hy => hp (CustomTable.append hy _)
    exact ih (hd.next h1) (hi.chunk hd hx1 hp1 h1) hx hp h2

theorem feed_flatten_std {d d' : Decoder} (hd : Fed d) (hd' : Fed d') (he : DecEqv d' d) {s : Bytes} (hi : StdInv d s)
    {cs : List Bytes} (hx : ¬ Extended (s ++ cs.flatten)) (hp : ¬ CustomTable (s ++ cs.flatten)) {e : Decoder} {o : Bytes}
    (h : d.feed (singles cs.flatten) = some (o, e)) : ∃ e', d'.feed cs = some (o, e') ∧ DecEqv e' e := by
  induction cs generalizing d d' s o with
  | nil =>
    have h' : d.feed [] = some (o, e) := h
    simp only [Decoder.feed, Option.some.injEq, Prod.mk.injEq] at h'
    obtain ⟨rfl, rfl⟩ := h'
    exact ⟨d', rfl, he⟩
  | cons c cs ih =>
    have e1 : singles (c :: cs).flatten = singles c ++ singles cs.flatten := by simp [singles]
    rw [e1, feed_append] at h
    obtain ⟨d1, o1, o2, h1, h2, rfl⟩ := h
    rw [List.flatten_cons, ← List.append_assoc] at hx hp
    have hx1 : ¬ Extended (s ++ c) := fun hy => hx (Extended.append hy _)
    have hp1 : ¬ CustomTable (s ++ c) := fun hy => hp (CustomTable.append hy _)
    obtain ⟨L, ns, k1, k2⟩ := feed_coarsen_std hd hi (xs := singles c) (by rw [singles_flatten]; exact hx1)
      (by rw [singles_flatten]; exact hp1) h1
    rw [singles_flatten] at k1
    have hs : StdInv d1 (s ++ c) := by
      have := StdInv.feed hd hi (xs := singles c) (by rw [singles_flatten]; exact hx1)
        (by rw [singles_flatten]; exact hp1) h1
      rw [singles_flatten] at this
      exact this
    have hr := chunk_congr he hd'.chain hd.chain c
    rw [k1] at hr
    generalize hy : chunkRun d'.top d'.nested c = y at hr
    cases hr with
    | @ok L' _ ns' _ _ hh =>
      obtain ⟨e', g1, g2⟩ := ih (d' := { top := L', nested := ns' }) (hd.feed h1) (hd'.next hy) (ChainEqv.trans hh k2) hs hx hp h2
      exact ⟨e', feed_cons_of hy g1, g2⟩

theorem decode_std {d : Decoder} (hd : d.top.started = false) {dict : Bytes} {cs cs' : List Bytes}
    (hx : ¬ Extended cs.flatten) (hp : ¬ CustomTable cs.flatten) (hcs : cs'.flatten = cs.flatten) :
    d.decode dict cs' = d.decode dict cs := by
  have key : ∀ {a b : List Bytes} {out : Bytes}, ¬ Extended a.flatten → ¬ CustomTable a.flatten → a.flatten = b.flatten →
      d.decode dict a = some out → d.decode dict b = some out := by
    intro a b out hx hp hab h
    have hf := Fed.start d hd dict
    have h1 := decode_singles hd h
    obtain ⟨e, h2, h3⟩ := decode_some.1 h1
    rw [hab] at h2 hx hp
    obtain ⟨e', h4, h5⟩ := feed_flatten_std hf hf (ChainEqv.refl _ _) (StdInv.start d hd dict) hx hp h2
    refine decode_some.2 ⟨e', h4, ?_⟩
    rw [h5.finish (hf.feed h4) (hf.feed h2)]
    exact h3
  cases h : d.decode dict cs with
  | some out => exact key hx hp hcs.symm h
  | none =>
    cases h' : d.decode dict cs' with
    | none => rfl
    | some out =>
      have := key (by rw [hcs]; exact hx) (by rw [hcs]; exact hp) hcs h'
      rw [h] at this
      simp at this

/-! ### Delivering a prefix -/

/-- While delivering a prefix of an acceptable file, only a prefix of its target is output. -/
theorem deliver_prefix {d d' e : Decoder} (hd : Fed d) (hd' : Fed d') (he : DecEqv d' d) {cs : List Bytes} {rest T : Bytes}
    (h : d'.feed (singles (cs.flatten ++ rest)) = some (T, e)) :
    ∃ rs d2, d.calls (cs.map .chunk) = .ok (rs, d2) ∧ allOut rs <+: T := by
  induction cs generalizing d d' T with
  | nil => exact ⟨[], d, rfl, List.nil_prefix⟩
  | cons c cs ih =>
    have e1 : singles ((c :: cs).flatten ++ rest) = singles c ++ singles (cs.flatten ++ rest) := by simp [singles]
    rw [e1, feed_append] at h
    obtain ⟨d1, o1, o2, h1, h2, rfl⟩ := h
    rw [List.map_cons]
    have hr := chunk_congr he.symm hd.chain hd'.chain c
    rcases feed_coarsen hd' h1 with ⟨L, ns, k1, k2⟩ | ⟨L, o', k1, k2⟩
    · rw [singles_flatten] at k1
      rw [k1] at hr
      generalize hy : chunkRun d.top d.nested c = y at hr
      cases hr with
      | @ok L' _ ns' _ _ hh =>
        have hfed : Fed { top := L', nested := ns' } := hd.next hy
        obtain ⟨rs, d2, g1, g2⟩ := ih (d := { top := L', nested := ns' }) hfed (hd'.feed h1)
          (ChainEqv.trans hh k2).symm h2
        have hcall : d.call (.chunk c) = .ok (⟨true, o1⟩, { top := L', nested := ns' }) := by
          simp only [Decoder.call, decodeChunk_eq, hy, List.nil_append]
        refine ⟨⟨true, o1⟩ :: rs, d2, by rw [calls_cons hcall, g1], ?_⟩
        obtain ⟨t, ht⟩ := g2
        exact ⟨t, by simp only [allOut, List.map_cons, List.flatten_cons, List.append_assoc] at ht ⊢; rw [ht]⟩
    · rw [singles_flatten] at k1
      rw [k1] at hr
      generalize hy : chunkRun d.top d.nested c = y at hr
      cases hr with
      | @error L' _ o'' _ hp =>
        have hcall : d.call (.chunk c) = .ok (⟨false, o''⟩, { top := L', nested := [] }) := by
          simp only [Decoder.call, decodeChunk_eq, hy]
        have hst := ((chunk_inv hd.chain c).2.1 _ _ hy).stopped
        obtain ⟨rs, d2, g1, _, g3, _⟩ := stopped_calls (d := { top := L', nested := [] }) hst (cs := cs.map .chunk)
          (by intro x hx dict hxx; rw [hxx] at hx; simp at hx)
        refine ⟨⟨false, o''⟩ :: rs, d2, by rw [calls_cons hcall, g1], ?_⟩
        have : allOut (⟨false, o''⟩ :: rs) = o'' := by
          unfold allOut at g3 ⊢
          rw [List.map_cons, List.flatten_cons, g3, List.append_nil]
        rw [this]
        rw [List.nil_append] at hp
        exact (hp.trans k2).trans (List.prefix_append _ _)

/-! ### Size of the output -/

theorem file_limit {d : Decoder} (hi : DecInv d) {cs : List Bytes} {rs : List DecoderReply} {d2 : Decoder}
    {n : Nat} (hle : d.top.started = true → d.top.total ≤ d.top.maxFile ∧ d.top.total = n + d.top.owed)
    (hn : n ≤ d.top.maxFile) (h : d.calls (cs.map .chunk) = .ok (rs, d2)) :
    n + (allOut rs).length ≤ d.top.maxFile := by
  induction cs generalizing d rs n with
  | nil =>
    simp only [List.map_nil, Decoder.calls, Except.ok.injEq, Prod.mk.injEq] at h
    rw [← h.1]
    simpa [allOut] using hn
  | cons c cs ih =>
    rw [List.map_cons] at h
    obtain ⟨r, d1, rs', h1, h2, rfl⟩ := calls_cons_ok h
    have hi1 := hi.call h1
    have hlen : (allOut (r :: rs')).length = r.out.length + (allOut rs').length := by simp [allOut]
    rw [hlen, ← Nat.add_assoc]
    by_cases hs : d.top.started = true
    · obtain ⟨hch, hpl⟩ := hi hs
      obtain ⟨a1, a2⟩ := hle hs
      obtain ⟨c1, c2, _⟩ := chunk_inv hch c
      simp only [Decoder.call, decodeChunk_eq] at h1
      cases hr : chunkRun d.top d.nested c with
      | fault f => simp [hr] at h1
      | error L o =>
        simp only [hr, Except.ok.injEq, Prod.mk.injEq] at h1
        obtain ⟨rfl, rfl⟩ := h1
        have he := c2 _ _ hr
        have hf := he.file a1
        have hm : L.maxFile = d.top.maxFile := he.maxFile
        have := ih (n := n + o.length) hi1 (fun hx => by
          have hx' : L.started = true := hx
          rw [he.stopped] at hx'; simp at hx')
          (by change n + o.length ≤ L.maxFile; omega) h2
        exact hm ▸ this
      | ok L ns o =>
        simp only [hr, Except.ok.injEq, Prod.mk.injEq] at h1
        obtain ⟨rfl, rfl⟩ := h1
        have he := c1 _ _ _ hr
        have hf := he.file a1
        have ht := he.total
        have hm : L.maxFile = d.top.maxFile := he.config.maxFile
        have := ih (n := n + o.length) hi1 (fun _ => ⟨hf, by change L.total = n + o.length + L.owed; omega⟩)
          (by change n + o.length ≤ L.maxFile; omega) h2
        exact hm ▸ this
    · have hs' : d.top.started = false := by simpa using hs
      rw [chunk_stopped hs'] at h1
      simp only [Except.ok.injEq, Prod.mk.injEq] at h1
      obtain ⟨rfl, rfl⟩ := h1
      exact ih (n := n) hi1 (fun hx => by simp [Level.reset] at hx) hn h2

/-! ### The file header -/

theorem headerBad_error {s : Bytes} (h : HeaderBad s) : readFileHeader s = .error := by
  obtain ⟨i, b, h1, h2⟩ := h
  by_cases hi : i < 4
  · refine readFileHeader_bad h1 hi ?_
    match i, hi with
    | 0, _ => exact h2
    | 1, _ => exact h2
    | 2, _ => exact h2
    | 3, _ => exact h2
  · match i, hi with
    | i + 5, _ => exact absurd trivial h2
    | 4, _ =>
      match s, h1 with
      | a1 :: a2 :: a3 :: a4 :: a5 :: s, h1 =>
        have e : a5 = b := by simpa using h1
        subst e
        rw [readFileHeader_cons5]
        split
        · unfold fileHeaderTail
          have h2' : a5 &&& 1 ≠ 0 := h2
          rw [if_pos h2']
        · rfl

theorem not_headerBad_eod {s t : Bytes} (h : ¬ HeaderBad s) (ht : HeaderBad (s ++ t)) : readFileHeader s = .endOfData := by
  have hl : s.length < 5 := by
    rcases Nat.lt_or_ge s.length 5 with hl | hl
    · exact hl
    · exfalso
      obtain ⟨i, b, h1, h2⟩ := ht
      apply h
      refine ⟨i, b, ?_, h2⟩
      have hi : i < 5 := by
        rcases Nat.lt_or_ge i 5 with hi | hi
        · exact hi
        · exfalso
          apply h2
          match i, hi with
          | i + 5, _ => exact trivial
      rw [List.getElem?_append_left (by omega)] at h1
      exact h1
  rcases readFileHeader_short hl with ⟨h1, _⟩ | ⟨_, i, b, h2, h3, h4⟩
  · exact h1
  · exfalso
    apply h
    refine ⟨i, b, h2, ?_⟩
    match i, h3 with
    | 0, _ => exact h4
    | 1, _ => exact h4
    | 2, _ => exact h4
    | 3, _ => exact h4

theorem header_bad_calls {d : Decoder} (hf : Fed d) (hc : d.top.cache = none) {cs : List Bytes} {c : Bytes}
    (h : ¬ HeaderBad (d.top.unparsed ++ cs.flatten)) (hb : HeaderBad (d.top.unparsed ++ cs.flatten ++ c)) :
    ∃ d2, d.calls (cs.map .chunk ++ [.chunk c]) =
      .ok (List.replicate cs.length ⟨true, []⟩ ++ [⟨false, []⟩], d2) ∧ d2.top.started = false := by
  have hL := hf.chain.node
  have hn := ChainInv.none hf.chain hc
  induction cs generalizing d with
  | nil =>
    rw [List.flatten_nil, List.append_nil] at hb
    have hr : chunkRun d.top d.nested c = failed d.top := by
      rw [chunkRun_eq, chunkStep, if_neg (by rw [hL.started]; simp)]
      simp only [hc, headerBad_error hb]
    refine ⟨{ top := ({ d.top with unparsed := [], decoded := [] } : Level).reset, nested := [] }, ?_, rfl⟩
    simp only [List.map_nil, List.nil_append, List.length_nil, List.replicate_zero, Decoder.calls, Decoder.call,
      decodeChunk_eq, hr, failed]
  | cons a cs ih =>
    rw [List.flatten_cons, ← List.append_assoc] at h hb
    have ha : readFileHeader (d.top.unparsed ++ a) = .endOfData := by
      refine not_headerBad_eod (t := cs.flatten ++ c) ?_ (by rw [← List.append_assoc]; exact hb)
      rintro ⟨i, b, h1, h2⟩
      apply h
      refine ⟨i, b, ?_, h2⟩
      rw [List.getElem?_append_left, h1]
      exact (List.getElem?_eq_some_iff.1 h1).1
    have hr : chunkRun d.top d.nested a = .ok (d.top.setUnparsed (d.top.unparsed ++ a)) [] [] := by
      have hd := (hL.fresh hc).2.1
      have ho : d.top.outPos = 0 := by rw [hL.out, hd]; rfl
      rw [chunkRun_eq, chunkStep, if_neg (by rw [hL.started]; simp)]
      simp only [hc, ha, hn, endChunk_eq]
      simp [Level.ended, Level.text, hd, ho, Level.setOut, Level.setUnparsed]
    have hnext := hf.next hr
    obtain ⟨d2, g1, g2⟩ := ih (d := { top := d.top.setUnparsed (d.top.unparsed ++ a), nested := [] }) hnext hc h hb
      hnext.chain.node rfl
    refine ⟨d2, ?_, g2⟩
    have hcall : d.call (.chunk a) = .ok (⟨true, []⟩, { top := d.top.setUnparsed (d.top.unparsed ++ a), nested := [] }) := by
      simp only [Decoder.call, decodeChunk_eq, hr]
    rw [List.map_cons, List.cons_append, calls_cons hcall, g1]
    rfl

end Vcd
