import Verif.Spec.Faults
import Verif.Proof.Api

/-!
# The cache fault needs a header with 254 NEAR slots
-/

namespace Vcd
open Spec

theorem Spec.AnnouncesNear254.of_suffix {s b : Bytes} (hs : s <:+ b) (h : AnnouncesNear254 s) : AnnouncesNear254 b := by
  obtain ⟨t, rfl⟩ := hs
  obtain ⟨pre, v, ind, nb, post, rfl, h⟩ := h
  exact ⟨t ++ pre, v, ind, nb, post, by simp, h⟩

theorem Spec.AnnouncesNear254.of_prefix {s b : Bytes} (hs : s <+: b) (h : AnnouncesNear254 s) : AnnouncesNear254 b := by
  obtain ⟨t, rfl⟩ := hs
  obtain ⟨pre, v, ind, nb, post, rfl, h⟩ := h
  exact ⟨pre, v, ind, nb, post ++ t, by simp, h⟩

theorem readFileHeader_announces {s r : Bytes} {hdr : FileHeader} {same : Nat} (h : readFileHeader s = .ok hdr r)
    (hc : hdr.caches = some (254, same)) : AnnouncesNear254 s := by
  have hl := readFileHeader_ok_len h
  match s, hl with
  | h1 :: h2 :: h3 :: h4 :: h5 :: s, _ =>
    rw [readFileHeader_cons5] at h
    by_cases hg : goodMagic h1 h2 h3 h4
    · rw [if_pos hg] at h
      obtain ⟨rfl, rfl, rfl, hv⟩ := hg
      unfold fileHeaderTail at h
      by_cases ha : h5 &&& 1 ≠ 0
      · rw [if_pos ha] at h; simp at h
      · rw [if_neg ha] at h
        by_cases hb : h5 &&& 2 ≠ 0
        · rw [if_pos hb] at h
          cases hp : parseInt32 s with
          | endOfData => simp [hp, Parsed.bind] at h
          | error => simp [hp, Parsed.bind] at h
          | ok near rest =>
            have hn : near = 254 := by
              simp only [hp, Parsed.bind] at h
              cases hq : parseInt32 rest with
              | endOfData => simp [hq] at h
              | error => simp [hq] at h
              | ok same' rest' =>
                simp only [hq] at h
                by_cases k1 : near > 255
                · rw [if_pos k1] at h; simp at h
                · rw [if_neg k1] at h
                  by_cases k2 : same' > 255
                  · rw [if_pos k2] at h; simp at h
                  · rw [if_neg k2] at h
                    simp only [Parsed.ok.injEq] at h
                    rw [← h.1] at hc
                    simp only [Option.some.injEq, Prod.mk.injEq] at hc
                    exact hc.1
            subst hn
            obtain ⟨nb, k1, k2, k3, k4⟩ := (parseInt32_ok_iff s 254 rest).1 hp
            refine ⟨[], h4, h5, nb, rest, ?_, hv, hb, ?_⟩
            · simp [k1]
            · exact ⟨k2, k3, k4⟩
        · rw [if_neg hb] at h
          simp only [Parsed.ok.injEq] at h
          rw [← h.1] at hc
          simp at hc
    · rw [if_neg hg] at h; simp at h

/-! ### The chain of decoders -/

/-- A level with 254 NEAR slots has read a header that says so, somewhere in `b`. -/
def Explained (b : Bytes) (L : Level) : Prop := ∀ c, L.cache = some c → c.nearSize = 254 → AnnouncesNear254 b

theorem windows_told {L : Level} (hn : NodeInv L) (hc : L.cache ≠ none) {s b : Bytes} (hs : s <:+ b) (ht : Explained b L) :
    (∀ L' ns' out, decodeChunkWindows L s = .ok L' ns' out →
      (∀ l ∈ L' :: ns', Explained b l) ∧ ∀ l ∈ L' :: ns', l.unparsed <:+ b) ∧
    ∀ f, decodeChunkWindows L s = .fault f → f = .nearOverflow ∨ (f = .cacheOob ∧ AnnouncesNear254 b) := by
  obtain ⟨w1, _, w3⟩ := windows_inv hn hc s
  refine ⟨?_, ?_⟩
  · intro L' ns' out h
    obtain ⟨rfl, _, _, _, _, _, _, ⟨pre, a8⟩, _, _, _, _, a13⟩ := w1 _ _ _ h
    refine ⟨?_, ?_⟩
    · intro l hl
      rw [List.mem_singleton] at hl
      subst hl
      intro c h1 h2
      cases hx : L.cache with
      | none => exact absurd hx hc
      | some c0 =>
        obtain ⟨c', k1, k2⟩ := a13 c0 hx
        rw [h1] at k1
        simp only [Option.some.injEq] at k1
        subst k1
        exact ht c0 hx (by rw [← k2]; exact h2)
    · intro l hl
      rw [List.mem_singleton] at hl
      subst hl
      obtain ⟨t, rfl⟩ := hs
      exact ⟨t ++ pre, by rw [a8, List.append_assoc]⟩
  · intro f h
    rcases w3 f h with h | ⟨h, c, h1, h2⟩
    · exact Or.inl h
    · exact Or.inr ⟨h, ht c h1 h2⟩

theorem afterTable_told {L n n' : Level} {ns ns' : List Level} {s text b : Bytes} (hL : NodeInv L)
    (hc : L.cache ≠ none) (hd : L.decoded = []) (hw : L.win = none) (ht : L.total = 0)
    (hstr : L.tableString = n.decoded) (hn : NestInv n ns) (hr : ChunkOk n ns s n' ns' text)
    (hs : s <:+ b) (hT : Explained b L) (hT' : ∀ l ∈ n' :: ns', Explained b l) (hu : ∀ l ∈ n' :: ns', l.unparsed <:+ b) :
    (∀ L' ns'' out, afterCodeTableChunk L n' ns' s text = .ok L' ns'' out →
      (∀ l ∈ L' :: ns'', Explained b l) ∧ ∀ l ∈ L' :: ns'', l.unparsed <:+ b) ∧
    ∀ f, afterCodeTableChunk L n' ns' s text = .fault f → f = .nearOverflow ∨ (f = .cacheOob ∧ AnnouncesNear254 b) := by
  rcases table_inv hL hc hd hw ht hstr hn hr with ⟨L', h1, h2, h3, h4, h5⟩ | ⟨t, rest, pre, h1, h2⟩
  · rw [h1]
    refine ⟨?_, by simp⟩
    intro L'' ns'' out h
    simp only [ChunkResult.ok.injEq] at h
    obtain ⟨rfl, rfl, rfl⟩ := h
    refine ⟨?_, ?_⟩
    · intro l hl
      rcases List.mem_cons.1 hl with rfl | hl
      · rw [h2]; exact hT
      · exact hT' l hl
    · intro l hl
      rcases List.mem_cons.1 hl with rfl | hl
      · rw [h4.unparsed]; exact List.nil_suffix
      · exact hu l hl
  · rw [h1]
    have hrest : rest <:+ b := by
      obtain ⟨t', rfl⟩ := hs
      exact ⟨t' ++ pre, by rw [h2, List.append_assoc]⟩
    exact windows_told (hL.closed_windows hw hc t []) hc hrest hT

theorem chunk_told {L : Level} {ns : List Level} (h : ChainInv L ns) (data : Bytes) {b : Bytes}
    (hT : ∀ l ∈ L :: ns, Explained b l) (hu : ∀ l ∈ L :: ns, l.unparsed ++ data <:+ b) :
    (∀ L' ns' out, chunkRun L ns data = .ok L' ns' out →
      (∀ l ∈ L' :: ns', Explained b l) ∧ ∀ l ∈ L' :: ns', l.unparsed <:+ b) ∧
    ∀ f, chunkRun L ns data = .fault f → f = .nearOverflow ∨ (f = .cacheOob ∧ AnnouncesNear254 b) := by
  induction hn : chunkDepth L ns data using Nat.strongRecOn generalizing L ns data with
  | _ k ih =>
    subst hn
    have hnode := h.node
    have hst := hnode.started
    have hu0 := hu L (List.mem_cons_self ..)
    have hT0 := hT L (List.mem_cons_self ..)
    rw [chunkRun_eq, chunkStep, if_neg (by rw [hst]; simp)]
    cases hc : L.cache with
    | some c =>
      have hcn : L.cache ≠ none := by rw [hc]; simp
      simp only
      cases ns with
      | nil => exact windows_told hnode hcn hu0 hT0
      | cons n ns =>
        obtain ⟨_, hwait, hnest, hchain⟩ := h
        have hlt : chunkDepth n ns (L.unparsed ++ data) < chunkDepth L (n :: ns) data := by
          simp only [chunkDepth, List.map_cons, List.sum_cons, List.length_append]
          omega
        have hu' : ∀ l ∈ n :: ns, l.unparsed ++ (L.unparsed ++ data) <:+ b := by
          intro l hl
          rw [hwait.unparsed, List.nil_append]
          exact hu l (List.mem_cons_of_mem _ hl)
        obtain ⟨n1, n3⟩ := ih _ hlt hchain (L.unparsed ++ data) (fun l hl => hT l (List.mem_cons_of_mem _ hl)) hu' rfl
        rw [tableStep]
        cases hr : chunkRun n ns (L.unparsed ++ data) with
        | fault f =>
          refine ⟨by simp, ?_⟩
          intro f' hf
          simp only [ChunkResult.fault.injEq] at hf
          subst hf
          exact n3 _ hr
        | error L2 o2 => exact ⟨by simp [failed], by simp [failed]⟩
        | ok n' ns' text =>
          simp only
          obtain ⟨m1, m2⟩ := n1 _ _ _ hr
          exact afterTable_told hnode hcn hwait.decoded hwait.win hwait.total hwait.str hnest
            ((chunk_inv hchain _).1 _ _ _ hr) hu0 hT0 m1 m2
    | none =>
      simp only
      have hns : ns = [] := h.none hc
      subst hns
      cases hh : readFileHeader (L.unparsed ++ data) with
      | error => exact ⟨by simp [failed], by simp [failed]⟩
      | endOfData =>
        refine ⟨?_, by simp [endChunk]⟩
        intro L' ns' out hr
        simp only [endChunk_eq, ChunkResult.ok.injEq] at hr
        obtain ⟨rfl, rfl, rfl⟩ := hr
        refine ⟨?_, ?_⟩
        · intro l hl
          rw [List.mem_singleton] at hl
          subst hl
          exact hT0
        · intro l hl
          rw [List.mem_singleton] at hl
          subst hl
          exact hu0
      | ok hdr rest =>
        simp only
        obtain ⟨i1, i2, i3, i4, i5, i6, i7, i8, i9⟩ := withHeader_inv hnode hc hdr
        obtain ⟨pre, p1, p2⟩ := readFileHeader_ok_pre hh
        have hrest : rest <:+ b := by
          obtain ⟨t, ht⟩ := hu0
          exact ⟨t ++ pre, by rw [← ht, p1, List.append_assoc]⟩
        have htold : Explained b (L.withHeader hdr) := by
          intro c h1 h2
          cases hcs : hdr.caches with
          | none =>
            simp only [Level.withHeader, hcs, Option.some.injEq] at h1
            subst h1
            simp [AddrCache.newDefault, AddrCache.new] at h2
          | some p =>
            obtain ⟨near, same⟩ := p
            simp only [Level.withHeader, hcs, Option.some.injEq] at h1
            subst h1
            simp only [AddrCache.new] at h2
            subst h2
            exact (readFileHeader_announces hh hcs).of_suffix hu0
        cases hcs : hdr.caches with
        | none =>
          have e1 : nestedFor hdr [] = [] := by simp [nestedFor, hcs]
          rw [e1, tableStep]
          exact windows_told i1 i2 hrest htold
        | some p =>
          have e1 : nestedFor hdr [] = [Level.forCodeTable] := by simp [nestedFor, hcs]
          rw [e1, tableStep]
          obtain ⟨_, hnest, hchain⟩ := forCodeTable_inv
          have hlt : chunkDepth Level.forCodeTable [] rest < chunkDepth L [] data := by
            have hl := congrArg List.length p1
            simp only [List.length_append] at hl
            have : Level.forCodeTable.unparsed = [] := rfl
            simp only [chunkDepth, List.map_cons, List.sum_cons, List.map_nil, List.sum_nil, this,
              List.length_nil]
            omega
          have hstr : (L.withHeader hdr).tableString = Level.forCodeTable.decoded := by
            simp only [Level.withHeader, hcs]; rfl
          have hT' : ∀ l ∈ [Level.forCodeTable], Explained b l := by
            intro l hl
            rw [List.mem_singleton] at hl
            subst hl
            intro c h1
            simp [Level.forCodeTable, Level.start, Level.reset] at h1
          have hu' : ∀ l ∈ [Level.forCodeTable], l.unparsed ++ rest <:+ b := by
            intro l hl
            rw [List.mem_singleton] at hl
            subst hl
            exact hrest
          obtain ⟨n1, n3⟩ := ih _ hlt hchain rest hT' hu' rfl
          cases hr : chunkRun Level.forCodeTable [] rest with
          | fault f =>
            refine ⟨by simp, ?_⟩
            intro f' hf
            simp only [ChunkResult.fault.injEq] at hf
            subst hf
            exact n3 _ hr
          | error L2 o2 => exact ⟨by simp [failed], by simp [failed]⟩
          | ok n' ns' text =>
            simp only
            obtain ⟨m1, m2⟩ := n1 _ _ _ hr
            exact afterTable_told i1 i2 i3 i4 i5 hstr hnest ((chunk_inv hchain _).1 _ _ _ hr) hrest htold m1 m2

/-! ### Calls -/

/-- The calls since decoding was started, as far as they are still relevant: `b` has all bytes fed. -/
structure ExplainedAll (d : Decoder) (b : Bytes) : Prop where
  told : ∀ l ∈ d.top :: d.nested, Explained b l
  kept : ∀ l ∈ d.top :: d.nested, l.unparsed <:+ b

theorem Explained.more {b : Bytes} {L : Level} (h : Explained b L) (t : Bytes) : Explained (b ++ t) L :=
  fun c h1 h2 => (h c h1 h2).of_prefix ⟨t, rfl⟩

theorem ExplainedAll.chunk {d : Decoder} {b : Bytes} (h : ExplainedAll d b) (hi : ChainInv d.top d.nested) (data : Bytes) :
    (∀ r d', d.call (.chunk data) = .ok (r, d') → d'.top.started = true → ExplainedAll d' (b ++ data)) ∧
    ∀ f, d.call (.chunk data) = .error f → f = .nearOverflow ∨ (f = .cacheOob ∧ AnnouncesNear254 (b ++ data)) := by
  obtain ⟨k1, k2⟩ := chunk_told hi data (b := b ++ data) (fun l hl => (h.told l hl).more data) (by
    intro l hl
    obtain ⟨t, ht⟩ := h.kept l hl
    exact ⟨t, by rw [← List.append_assoc, ht]⟩)
  simp only [Decoder.call, decodeChunk_eq]
  refine ⟨?_, ?_⟩
  · intro r d' hc hs
    cases hr : chunkRun d.top d.nested data with
    | fault f => simp [hr] at hc
    | error L o =>
      simp only [hr, Except.ok.injEq, Prod.mk.injEq] at hc
      have := ((chunk_inv hi data).2.1 _ _ hr).stopped
      rw [← hc.2] at hs
      simp only at hs
      rw [this] at hs
      simp at hs
    | ok L ns o =>
      simp only [hr, Except.ok.injEq, Prod.mk.injEq] at hc
      rw [← hc.2]
      obtain ⟨m1, m2⟩ := k1 _ _ _ hr
      exact ⟨m1, m2⟩
  · intro f hc
    cases hr : chunkRun d.top d.nested data with
    | fault f' =>
      simp only [hr, Except.error.injEq] at hc
      subst hc
      exact k2 _ hr
    | error L o => simp [hr] at hc
    | ok L ns o => simp [hr] at hc

theorem ExplainedAll.setTop {d : Decoder} {b : Bytes} (h : ExplainedAll d b) {L : Level} (hc : L.cache = d.top.cache)
    (hu : L.unparsed = d.top.unparsed) : ExplainedAll { d with top := L } b := by
  refine ⟨?_, ?_⟩
  · intro l hl
    rcases List.mem_cons.1 hl with rfl | hl
    · intro c h1
      rw [hc] at h1
      exact h.told _ (List.mem_cons_self ..) c h1
    · exact h.told l (List.mem_cons_of_mem _ hl)
  · intro l hl
    rcases List.mem_cons.1 hl with rfl | hl
    · rw [hu]
      exact h.kept _ (List.mem_cons_self ..)
    · exact h.kept l (List.mem_cons_of_mem _ hl)

theorem ExplainedAll.start {d : Decoder} (hs : d.top.started = false) (dict b : Bytes) : ExplainedAll (d.start dict) b := by
  have e : d.start dict = { top := { ({ d.top with unparsed := [], decoded := [] } : Level).reset with dict := dict, started := true }, nested := [] } := by
    simp [Decoder.start, Level.start, hs]
  rw [e]
  refine ⟨?_, ?_⟩
  · intro l hl
    rw [List.mem_singleton] at hl
    subst hl
    intro c h1
    simp [Level.reset] at h1
  · intro l hl
    rw [List.mem_singleton] at hl
    subst hl
    exact List.nil_suffix

/-- Where in the calls the bytes are that announce 254 NEAR slots. -/
def AnnouncedIn (cs : List DecoderCall) : Prop :=
  ∃ before dict session after, cs = before ++ .start dict :: (session ++ after) ∧ .finish ∉ session ∧
    AnnouncesNear254 (streamOf session)

theorem AnnouncedIn.cons {cs : List DecoderCall} (h : AnnouncedIn cs) (c : DecoderCall) : AnnouncedIn (c :: cs) := by
  obtain ⟨before, dict, session, after, rfl, h⟩ := h
  exact ⟨c :: before, dict, session, after, rfl, h⟩

theorem calls_fault_told {d : Decoder} (h : DecInv d) {cs : List DecoderCall} {f : Fault} (hc : d.calls cs = .error f)
    (b : Bytes) (ht : d.top.started = true → ExplainedAll d b) :
    f = .nearOverflow ∨ (f = .cacheOob ∧ (AnnouncedIn cs ∨ (d.top.started = true ∧
      ∃ session after, cs = session ++ after ∧ .finish ∉ session ∧ AnnouncesNear254 (b ++ streamOf session)))) := by
  induction cs generalizing d b with
  | nil => simp [Decoder.calls] at hc
  | cons c cs ih =>
    unfold Decoder.calls at hc
    cases h1 : d.call c with
    | error f' =>
      simp only [h1, Except.error.injEq] at hc
      subst hc
      obtain ⟨hs, data, rfl, hf⟩ := call_fault h h1
      rcases ((ht hs).chunk (h hs).1 data).2 _ h1 with k | ⟨k1, k2⟩
      · exact Or.inl k
      · exact Or.inr ⟨k1, Or.inr ⟨hs, [.chunk data], cs, rfl, by simp, by simpa [streamOf] using k2⟩⟩
    | ok p =>
      obtain ⟨r, d1⟩ := p
      simp only [h1] at hc
      cases h2 : d1.calls cs with
      | ok q => simp [h2] at hc
      | error f' =>
        simp only [h2, Except.error.injEq] at hc
        subst hc
        have hi := h.call h1
        -- a call that keeps the session
        have same : ∀ b', (d1.top.started = true → ExplainedAll d1 b') → (d1.top.started = true → d.top.started = true) → c ≠ .finish →
            (∀ session, b' ++ streamOf session = b ++ streamOf (c :: session)) →
            f' = .nearOverflow ∨ (f' = .cacheOob ∧ (AnnouncedIn (c :: cs) ∨ (d.top.started = true ∧
              ∃ session after, c :: cs = session ++ after ∧ .finish ∉ session ∧
                AnnouncesNear254 (b ++ streamOf session)))) := by
          intro b' k1 k2 k3 k4
          rcases ih hi h2 b' k1 with m | ⟨m, m1 | ⟨m1, session, after, m2, m3, m4⟩⟩
          · exact Or.inl m
          · exact Or.inr ⟨m, Or.inl (m1.cons c)⟩
          · refine Or.inr ⟨m, Or.inr ⟨k2 m1, c :: session, after, by rw [m2]; rfl, ?_, by rw [← k4]; exact m4⟩⟩
            intro hmem
            rcases List.mem_cons.1 hmem with hm | hm
            · exact k3 hm.symm
            · exact m3 hm
        cases c with
        | start dict =>
          simp only [Decoder.call, Except.ok.injEq, Prod.mk.injEq] at h1
          by_cases hs : d.top.started = true
          · have e : d1 = d := by rw [← h1.2, Decoder.start, if_pos hs]
            subst e
            exact same b ht id (by simp) (fun _ => rfl)
          · have hs' : d.top.started = false := by simpa using hs
            have k1 : ExplainedAll d1 [] := by rw [← h1.2]; exact ExplainedAll.start hs' dict []
            rcases ih hi h2 [] (fun _ => k1) with m | ⟨m, m1 | ⟨m1, session, after, m2, m3, m4⟩⟩
            · exact Or.inl m
            · exact Or.inr ⟨m, Or.inl (m1.cons _)⟩
            · exact Or.inr ⟨m, Or.inl ⟨[], dict, session, after, by rw [m2]; rfl, m3, m4⟩⟩
        | chunk data =>
          by_cases hs : d.top.started = true
          · refine same (b ++ data) (((ht hs).chunk (h hs).1 data).1 r d1 h1) (fun _ => hs) (by simp) ?_
            intro session
            simp [streamOf]
          · have hs' : d.top.started = false := by simpa using hs
            have e : d1.top.started = false := by
              simp only [Decoder.call, decodeChunk_eq] at h1
              rw [chunkRun_eq, chunkStep, if_pos hs'] at h1
              simp only [Except.ok.injEq, Prod.mk.injEq] at h1
              rw [← h1.2]
              rfl
            refine same (b ++ data) (fun hx => by rw [e] at hx; simp at hx) (fun hx => by rw [e] at hx; simp at hx) (by simp) ?_
            intro session
            simp [streamOf]
        | finish =>
          simp only [Decoder.call, Except.ok.injEq, Prod.mk.injEq] at h1
          have e : d1.top.started = false := by rw [← h1.2]; rfl
          rcases ih hi h2 [] (fun hx => by rw [e] at hx; simp at hx) with m | ⟨m, m1 | ⟨m1, _⟩⟩
          · exact Or.inl m
          · exact Or.inr ⟨m, Or.inl (m1.cons _)⟩
          · rw [e] at m1; simp at m1
        | setMaxFile n =>
          simp only [Decoder.call, Except.ok.injEq, Prod.mk.injEq] at h1
          have e : d1 = { d with top := { d.top with maxFile := n } } := by rw [← h1.2]; rfl
          subst e
          exact same b (fun hs => (ht hs).setTop rfl rfl) id (by simp) (fun _ => rfl)
        | setMaxWin n =>
          simp only [Decoder.call, Except.ok.injEq, Prod.mk.injEq, Decoder.setMaxWin] at h1
          by_cases hn : n > targetSizeLimit
          · simp only [if_pos hn] at h1
            obtain ⟨_, rfl⟩ := h1
            exact same b ht id (by simp) (fun _ => rfl)
          · simp only [if_neg hn] at h1
            obtain ⟨_, rfl⟩ := h1
            exact same b (fun hs => (ht hs).setTop rfl rfl) id (by simp) (fun _ => rfl)
        | setAllowTarget x =>
          simp only [Decoder.call, Except.ok.injEq, Prod.mk.injEq, Decoder.setAllowTarget] at h1
          by_cases hn : d.top.started = true
          · simp only [if_pos hn] at h1
            obtain ⟨_, rfl⟩ := h1
            exact same b ht id (by simp) (fun _ => rfl)
          · simp only [if_neg hn] at h1
            obtain ⟨_, rfl⟩ := h1
            exact same b (fun hs => absurd hs hn) id (by simp) (fun _ => rfl)

end Vcd
