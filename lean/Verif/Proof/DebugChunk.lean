import Verif.Proof.Debug
import Verif.Proof.Sessions

/-!
# Which `VCD_DFATAL`s a debug build of the decoder can come to: chunks and calls
-/

namespace Vcd
open Spec

/-! ### The file header -/

theorem parseInt32_le {s r : Bytes} {v : Nat} (h : parseInt32 s = .ok v r) : r.length ≤ s.length := by
  obtain ⟨pre, hp, _⟩ := parseInt32_ok_pre h
  rw [hp, List.length_append]
  omega

theorem checkMagic_true {s : Bytes} (h : checkMagic s = some true) : 5 ≤ s.length := by
  match s with
  | [] => simp [checkMagic] at h
  | [a] => simp only [checkMagic] at h; split at h <;> simp at h
  | [a, b] => simp only [checkMagic] at h; split at h <;> simp at h
  | [a, b, c] => simp only [checkMagic] at h; split at h <;> simp at h
  | [a, b, c, d] => simp only [checkMagic] at h; split at h <;> (try split at h) <;> simp at h
  | a :: b :: c :: d :: e :: t => simp only [List.length_cons]; omega

theorem readFileHeader_site {s : Bytes} {x : Site} (h : readFileHeaderSite s = some x) :
    readFileHeader s = .error ∧ (x = .nearSize ∨ x = .sameSize) ∧ s.getD 4 0 &&& 2 ≠ 0 := by
  unfold readFileHeaderSite at h
  unfold readFileHeader
  cases hm : checkMagic s with
  | none => simp [hm] at h
  | some b =>
    cases b with
    | false => simp [hm] at h
    | true =>
      have h5 := checkMagic_true hm
      simp only [hm] at h ⊢
      by_cases h1 : s.getD 4 0 &&& 1 ≠ 0
      · rw [if_pos h1] at h; simp at h
      rw [if_neg h1] at h ⊢
      by_cases h2 : s.getD 4 0 &&& 2 ≠ 0
      · rw [if_pos h2] at h ⊢
        cases hn : parseInt32 (s.drop 5) with
        | error => simp [hn] at h
        | endOfData => simp [hn] at h
        | ok near r1 =>
          simp only [hn, Parsed.bind_ok] at h ⊢
          cases hs : parseInt32 r1 with
          | error => simp [hs] at h
          | endOfData => simp [hs] at h
          | ok same r2 =>
            simp only [hs, Parsed.bind_ok] at h ⊢
            by_cases g1 : near > 255
            · rw [if_pos g1] at h ⊢
              simp only [Option.some.injEq] at h
              exact ⟨rfl, Or.inl h.symm, h2⟩
            rw [if_neg g1] at h ⊢
            by_cases g2 : same > 255
            · rw [if_pos g2] at h ⊢
              simp only [Option.some.injEq] at h
              exact ⟨rfl, Or.inr h.symm, h2⟩
            rw [if_neg g2] at h
            exfalso
            have q1 := parseInt32_le hn
            have q2 := parseInt32_le hs
            rw [List.length_drop] at q1
            rw [if_neg (by omega)] at h
            simp at h
      · rw [if_neg h2, if_neg (by omega)] at h
        simp at h

/-! ### Nested decoders -/

/-- All levels. -/
def ChainTyped (L : Level) (ns : List Level) : Prop := Typed L ∧ ∀ n ∈ ns, Typed n

theorem default_types : TypesOk defaultTable := by
  intro op
  rw [default_first, default_second]
  revert op
  apply forall_byte
  decide +kernel

theorem valid_types {t : CodeTable} {m : Nat} (h : t.validate m = true) : TypesOk t := by
  intro op
  have := ((validate_iff t m).1 h).1 op
  exact ⟨this.1.1, this.2.1⟩

theorem tableAfter_types {L : Level} (h : TypesOk L.table) (b : Bytes) (hb : b.length = codeTableSize) :
    TypesOk (L.tableAfter b hb) := by
  unfold Level.tableAfter
  split
  · rename_i hv; exact valid_types hv
  · exact h

theorem forCodeTable_typed : Typed Level.forCodeTable := .closed default_types rfl

theorem withHeader_typed {L : Level} (h : TypesOk L.table) (hw : L.win = none) (hdr : FileHeader) : Typed (L.withHeader hdr) := by
  unfold Level.withHeader
  split
  · exact .closed h hw
  · exact .closed h hw

theorem error_table {L : Level} {s o : Bytes} {L' : Level} (h : decodeChunkWindows L s = .error L' o) : L'.table = L.table := by
  rw [decodeChunkWindows_eq] at h
  cases hw : winRun L s with
  | fault f => simp [hw] at h
  | error o => simp only [hw, ChunkResult.error.injEq] at h; rw [← h.1]; rfl
  | done L1 r1 o1 => simp [hw] at h

theorem failed_table {L L' : Level} {o : Bytes} (h : failed L = .error L' o) : L'.table = L.table := by
  rw [(failed_eq h).1]; rfl

/-- A chunk keeps the types of instructions. -/
theorem chunk_typed {L : Level} {ns : List Level} (h : ChainInv L ns) (hT : ChainTyped L ns) (data : Bytes) :
    (∀ L' ns' o, chunkRun L ns data = .ok L' ns' o → ChainTyped L' ns') ∧
    (∀ L' o, chunkRun L ns data = .error L' o → TypesOk L'.table) := by
  induction hn : chunkDepth L ns data using Nat.strongRecOn generalizing L ns data with
  | _ k ih =>
    subst hn
    have hnode := h.node
    rw [chunkRun_eq, chunkStep, if_neg (by rw [hnode.started]; simp)]
    have hwin : ∀ {L : Level} (s : Bytes), LevelInv L → Typed L →
        (∀ L' ns' o, decodeChunkWindows L s = .ok L' ns' o → ChainTyped L' ns') ∧
        (∀ L' o, decodeChunkWindows L s = .error L' o → TypesOk L'.table) := by
      intro L s hL hT
      refine ⟨?_, ?_⟩
      · intro L' ns' o hr
        have hx := hr
        rw [decodeChunkWindows_nested L s hr]
        exact ⟨windows_stable typed_stable hL hT hx, by simp⟩
      · intro L' o hr
        rw [error_table hr]; exact hT.types
    have hafter : ∀ {L n n' : Level} {ns ns' : List Level} {s text : Bytes}, NodeInv L → Typed L → L.cache ≠ none → L.decoded = [] →
        L.win = none → L.total = 0 → L.tableString = n.decoded → NestInv n ns → ChunkOk n ns s n' ns' text → ChainTyped n' ns' →
        (∀ L' ns'' o, afterCodeTableChunk L n' ns' s text = .ok L' ns'' o → ChainTyped L' ns'') ∧
        (∀ L' o, afterCodeTableChunk L n' ns' s text = .error L' o → TypesOk L'.table) := by
      intro L n n' ns ns' s text hL hT hc hd hw ht hstr hn hr hTn
      rcases table_step hL hc hd hw ht hstr hn hr with ⟨L1, h1, h2, _⟩ | ⟨hlen, hns, hwn, hcn, _, h1⟩
      · rw [h1]
        refine ⟨?_, by simp⟩
        intro L' ns'' o hx
        simp only [ChunkResult.ok.injEq] at hx
        obtain ⟨rfl, rfl, rfl⟩ := hx
        refine ⟨?_, ?_⟩
        · rw [h2]; exact .closed hT.types hw
        · intro m hm
          rcases List.mem_cons.1 hm with rfl | hm
          · exact hTn.1
          · exact hTn.2 m hm
      · rw [h1]
        exact hwin _ (hL.closed_windows hw hc _ []).inv (.closed (tableAfter_types hT.types _ _) hw)
    cases hc : L.cache with
    | some c =>
      have hcn : L.cache ≠ none := by rw [hc]; simp
      simp only
      cases ns with
      | nil => exact hwin _ hnode.inv hT.1
      | cons n ns =>
        obtain ⟨_, hwait, hnest, hchain⟩ := h
        have hlt : chunkDepth n ns (L.unparsed ++ data) < chunkDepth L (n :: ns) data := by
          simp only [chunkDepth, List.map_cons, List.sum_cons, List.length_append]
          omega
        have hTn : ChainTyped n ns := ⟨hT.2 n (by simp), fun m hm => hT.2 m (by simp [hm])⟩
        obtain ⟨n1, n2⟩ := ih _ hlt hchain hTn (L.unparsed ++ data) rfl
        rw [tableStep]
        cases hr : chunkRun n ns (L.unparsed ++ data) with
        | fault f => simp
        | error L2 o2 =>
          refine ⟨by simp [failed], ?_⟩
          intro L' o he
          rw [failed_table he]; exact hT.1.types
        | ok n' ns' text =>
          exact hafter hnode hT.1 hcn hwait.decoded hwait.win hwait.total hwait.str hnest
            ((chunk_inv hchain _).1 _ _ _ hr) (n1 _ _ _ hr)
    | none =>
      simp only
      have hns : ns = [] := h.none hc
      subst hns
      obtain ⟨f1, f2, f3⟩ := hnode.fresh hc
      cases hh : readFileHeader (L.unparsed ++ data) with
      | error =>
        refine ⟨by simp [failed], ?_⟩
        intro L' o he
        rw [failed_table he]; exact hT.1.types
      | endOfData =>
        refine ⟨?_, by simp [endChunk_eq]⟩
        intro L' ns' o hr
        simp only [endChunk_eq, ChunkResult.ok.injEq] at hr
        obtain ⟨rfl, rfl, rfl⟩ := hr
        exact ⟨hT.1.congr rfl rfl, by simp⟩
      | ok hdr rest =>
        simp only
        obtain ⟨i1, i2, i3, i4, i5, _⟩ := withHeader_inv hnode hc hdr
        have hT' := withHeader_typed hT.1.types f1 hdr
        cases hcs : hdr.caches with
        | none =>
          have e1 : nestedFor hdr [] = [] := by simp [nestedFor, hcs]
          rw [e1, tableStep]
          exact hwin _ i1.inv hT'
        | some p =>
          have e1 : nestedFor hdr [] = [Level.forCodeTable] := by simp [nestedFor, hcs]
          rw [e1, tableStep]
          obtain ⟨pre, p1, p2⟩ := readFileHeader_ok_pre hh
          obtain ⟨_, hnest, hchain⟩ := forCodeTable_inv
          have hlt : chunkDepth Level.forCodeTable [] rest < chunkDepth L [] data := by
            have hl := congrArg List.length p1
            simp only [List.length_append] at hl
            have : Level.forCodeTable.unparsed = [] := rfl
            simp only [chunkDepth, List.map_cons, List.sum_cons, List.map_nil, List.sum_nil, this, List.length_nil]
            omega
          obtain ⟨n1, n2⟩ := ih _ hlt hchain ⟨forCodeTable_typed, by simp⟩ rest rfl
          have hstr : (L.withHeader hdr).tableString = Level.forCodeTable.decoded := by
            simp only [Level.withHeader, hcs]; rfl
          cases hr : chunkRun Level.forCodeTable [] rest with
          | fault f => simp
          | error L2 o2 =>
            refine ⟨by simp [failed], ?_⟩
            intro L' o he
            rw [failed_table he]; exact hT'.types
          | ok n' ns' text =>
            exact hafter i1 hT' i2 i3 i4 i5 hstr hnest ((chunk_inv hchain _).1 _ _ _ hr) (n1 _ _ _ hr)

/-! ### Places in `DecodeChunk` -/

/-- `ReadCustomCodeTable` and the rest of `DecodeChunk`. -/
def tableSite (fuel : Nat) (L : Level) (ns : List Level) (s : Bytes) : Option Site :=
  match ns with
  | [] => windowLoopSite (s.length + 2) L s
  | n :: ns =>
    (decodeChunkSiteFuel fuel n ns s).or
      (match decodeChunkFuel fuel n ns s with
       | .ok n' ns' text => afterCodeTableChunkSite L n' ns' s text
       | _ => none)

theorem decodeChunkSiteFuel_succ {fuel : Nat} {L : Level} {ns : List Level} {data : Bytes} (hs : L.started = true) :
    decodeChunkSiteFuel (fuel + 1) L ns data =
      match L.cache with
      | some _ => tableSite fuel L ns (L.unparsed ++ data)
      | none =>
        (readFileHeaderSite (L.unparsed ++ data)).or
          (match readFileHeader (L.unparsed ++ data) with
           | .ok hdr rest => tableSite fuel (L.withHeader hdr) (nestedFor hdr ns) rest
           | _ => none) := by
  rw [decodeChunkSiteFuel, if_neg (by simp [hs])]
  dsimp only
  cases L.cache with
  | some c => cases ns <;> rfl
  | none =>
    dsimp only
    congr 1
    cases readFileHeader (L.unparsed ++ data) with
    | error => rfl
    | endOfData => rfl
    | ok hdr rest =>
      obtain ⟨v, c⟩ := hdr
      cases c with
      | none => cases ns <;> rfl
      | some p => rfl

theorem winBad_input {L : Level} {s : Bytes} {x : Site} (h : WinBad L s x) : x ∈ inputSites := by
  obtain ⟨c, _, ⟨rfl, _⟩ | ⟨hdr, ⟨rfl, _⟩ | ⟨rfl, _⟩, _⟩⟩ := h <;> decide

theorem windows_input {L : Level} (hL : LevelInv L) (hT : Typed L) (hc : L.cache ≠ none) (hp : L.InPlan) {s : Bytes} {x : Site}
    (h : windowLoopSite (s.length + 2) L s = some x) : x ∈ inputSites ∧ ∃ L' o, decodeChunkWindows L s = .error L' o := by
  obtain ⟨k1, L', s', j1, j2, j3, j4⟩ := windows_site typed_stable hL hT hc hp h
    (fun L s x h1 h2 h3 h4 => (decodeWindow_site h1 h2 h3 h4).1)
  exact ⟨winBad_input (decodeWindow_site j1 j2 j3 j4).2, k1⟩

theorem after_input {L n n' : Level} {ns ns' : List Level} {s text : Bytes} (hL : NodeInv L) (hT : Typed L) (hc : L.cache ≠ none)
    (hd : L.decoded = []) (hw : L.win = none) (ht : L.total = 0) (hstr : L.tableString = n.decoded) (hn : NestInv n ns)
    (hr : ChunkOk n ns s n' ns' text) {x : Site} (h : afterCodeTableChunkSite L n' ns' s text = some x) :
    x ∈ inputSites ∧ ∃ L' o, afterCodeTableChunk L n' ns' s text = .error L' o := by
  have hstr' : L.tableString ++ text = n'.decoded := by rw [hstr, hr.kept hn.target]
  have hpl : n'.planned = some codeTableSize := hr.config.planned.trans hn.planned
  have hle := hr.plan _ hn.planned hn.max
  unfold afterCodeTableChunkSite at h
  simp only [hstr'] at h
  rcases table_step hL hc hd hw ht hstr hn hr with ⟨L1, h1, h2, h3, h4, h5⟩ | ⟨hlen, hns, hwn, hcn, ⟨pre, hpre⟩, h1⟩
  · rw [if_pos h5.small] at h
    simp at h
  · rw [if_neg (by omega)] at h
    have hin : n'.InPlan := by
      intro p hp
      rw [hpl] at hp
      simp only [Option.some.injEq] at hp
      omega
    have hcs : n'.isCompleteSite (!ns'.isEmpty) = none := by
      unfold Level.isCompleteSite
      split
      · rfl
      split
      · rfl
      split
      · rfl
      exact hin.site
    have hreach : n'.reachedPlanned = true := by
      have h1 := hr.total
      rw [hn.total] at h1
      have h2 := congrArg List.length (hr.kept hn.target)
      rw [List.length_append] at h2
      simp only [Level.reachedPlanned, hpl, decide_eq_true_eq]
      have : n'.owed = 0 := by simp [Level.owed, hwn]
      omega
    subst hns
    have hcomp : n'.isComplete (!([] : List Level).isEmpty) = true := by
      unfold Level.isComplete
      cases hx : n'.cache with
      | none => exact absurd hx hcn
      | some c => simp [hwn, hreach]
    rw [hcs, Option.none_or, hcomp] at h
    have hul : n'.unparsed.length ≤ s.length := by rw [hpre, List.length_append]; omega
    have hdrop : s.drop (s.length - n'.unparsed.length) = n'.unparsed := by
      have : s.length - n'.unparsed.length = pre.length := by rw [hpre, List.length_append]; omega
      rw [this, hpre, List.drop_left']
      rfl
    simp only [Bool.not_true, Bool.false_eq_true, if_false, dif_pos hlen] at h
    rw [if_neg (by omega)] at h
    simp only [hdrop] at h
    have hin' : Level.InPlan { L with tableString := [], table := L.tableAfter n'.decoded hlen } := by
      intro p _
      change L.total ≤ p
      omega
    rw [h1]
    exact windows_input (hL.closed_windows hw hc _ []).inv (.closed (tableAfter_types hT.types _ _) hw) hc hin' h

theorem chunk_site {fuel : Nat} {L : Level} {ns : List Level} (h : ChainInv L ns) (hT : ChainTyped L ns) (hp : L.InPlan)
    {data : Bytes} (hf : chunkDepth L ns data ≤ fuel) {x : Site} (hx : decodeChunkSiteFuel fuel L ns data = some x) :
    x ∈ inputSites ∧ ∃ L' o, chunkRun L ns data = .error L' o := by
  induction fuel generalizing L ns data with
  | zero => simp [decodeChunkSiteFuel] at hx
  | succ fuel ih =>
    have hnode := h.node
    rw [chunkRun_eq, chunkStep, if_neg (by rw [hnode.started]; simp)]
    rw [decodeChunkSiteFuel_succ hnode.started] at hx
    cases hc : L.cache with
    | some c =>
      have hcn : L.cache ≠ none := by rw [hc]; simp
      simp only [hc] at hx ⊢
      cases ns with
      | nil => exact windows_input hnode.inv hT.1 hcn hp hx
      | cons n ns =>
        obtain ⟨_, hwait, hnest, hchain⟩ := h
        have hlt : chunkDepth n ns (L.unparsed ++ data) < chunkDepth L (n :: ns) data := by
          simp only [chunkDepth, List.map_cons, List.sum_cons, List.length_append]
          omega
        have hTn : ChainTyped n ns := ⟨hT.2 n (by simp), fun m hm => hT.2 m (by simp [hm])⟩
        have heq : decodeChunkFuel fuel n ns (L.unparsed ++ data) = chunkRun n ns (L.unparsed ++ data) :=
          decodeChunkFuel_eq (by omega) (Nat.le_refl _)
        have hpn : n.InPlan := by
          intro p hp
          rw [hnest.planned] at hp
          simp only [Option.some.injEq] at hp
          have := hnest.max
          omega
        rw [tableSite, heq] at hx
        rw [tableStep]
        rcases or_some hx with hx | ⟨_, hx⟩
        · obtain ⟨k1, L', o, k2⟩ := ih hchain hTn hpn (by omega) hx
          rw [k2]
          exact ⟨k1, _, _, rfl⟩
        · cases hr : chunkRun n ns (L.unparsed ++ data) with
          | fault f => simp [hr] at hx
          | error L2 o2 => simp [hr] at hx
          | ok n' ns' text =>
            simp only [hr] at hx ⊢
            exact after_input hnode hT.1 hcn hwait.decoded hwait.win hwait.total hwait.str hnest
              ((chunk_inv hchain _).1 _ _ _ hr) hx
    | none =>
      simp only [hc] at hx ⊢
      have hns : ns = [] := h.none hc
      subst hns
      obtain ⟨f1, f2, f3⟩ := hnode.fresh hc
      rcases or_some hx with hx | ⟨_, hx⟩
      · obtain ⟨k1, k2, _⟩ := readFileHeader_site hx
        rw [k1]
        exact ⟨by rcases k2 with rfl | rfl <;> decide, _, _, rfl⟩
      · cases hh : readFileHeader (L.unparsed ++ data) with
        | error => simp [hh] at hx
        | endOfData => simp [hh] at hx
        | ok hdr rest =>
          simp only [hh] at hx ⊢
          obtain ⟨i1, i2, i3, i4, i5, _⟩ := withHeader_inv hnode hc hdr
          have hT' := withHeader_typed hT.1.types f1 hdr
          have hp' : (L.withHeader hdr).InPlan := fun p _ => by rw [i5]; omega
          cases hcs : hdr.caches with
          | none =>
            have e1 : nestedFor hdr [] = [] := by simp [nestedFor, hcs]
            rw [e1] at hx ⊢
            exact windows_input i1.inv hT' i2 hp' hx
          | some p =>
            have e1 : nestedFor hdr [] = [Level.forCodeTable] := by simp [nestedFor, hcs]
            obtain ⟨pre, p1, p2⟩ := readFileHeader_ok_pre hh
            obtain ⟨_, hnest, hchain⟩ := forCodeTable_inv
            have hlt : chunkDepth Level.forCodeTable [] rest < chunkDepth L [] data := by
              have hl := congrArg List.length p1
              simp only [List.length_append] at hl
              have : Level.forCodeTable.unparsed = [] := rfl
              simp only [chunkDepth, List.map_cons, List.sum_cons, List.map_nil, List.sum_nil, this, List.length_nil]
              omega
            have hstr : (L.withHeader hdr).tableString = Level.forCodeTable.decoded := by
              simp only [Level.withHeader, hcs]; rfl
            have heq : decodeChunkFuel fuel Level.forCodeTable [] rest = chunkRun Level.forCodeTable [] rest :=
              decodeChunkFuel_eq (by omega) (Nat.le_refl _)
            rw [e1, tableSite, heq] at hx
            rw [e1, tableStep]
            rcases or_some hx with hx | ⟨_, hx⟩
            · obtain ⟨k1, L', o, k2⟩ := ih hchain ⟨forCodeTable_typed, by simp⟩
                (fun p _ => Nat.zero_le _) (by omega) hx
              rw [k2]
              exact ⟨k1, _, _, rfl⟩
            · cases hr : chunkRun Level.forCodeTable [] rest with
              | fault f => simp [hr] at hx
              | error L2 o2 => simp [hr] at hx
              | ok n' ns' text =>
                simp only [hr] at hx ⊢
                exact after_input i1 hT' i2 i3 i4 i5 hstr hnest ((chunk_inv hchain _).1 _ _ _ hr) hx

/-! ### Calls -/

/-- Between two calls. -/
structure DecTyped (d : Decoder) : Prop where
  inv : DecInv d
  table : TypesOk d.top.table
  chain : d.top.started = true → ChainTyped d.top d.nested

theorem DecTyped.new : DecTyped {} := ⟨DecInv.new, default_types, fun h => by simp at h⟩

theorem DecTyped.call {d d' : Decoder} {c : DecoderCall} {r : DecoderReply} (h : DecTyped d) (hc : d.call c = .ok (r, d')) :
    DecTyped d' := by
  suffices hs : TypesOk d'.top.table ∧ (d'.top.started = true → ChainTyped d'.top d'.nested) from ⟨h.inv.call hc, hs.1, hs.2⟩
  cases c with
  | start dict =>
    simp only [Decoder.call, Except.ok.injEq, Prod.mk.injEq] at hc
    rw [← hc.2]
    by_cases hs : d.top.started = true
    · have : d.start dict = d := by simp [Decoder.start, hs]
      rw [this]; exact ⟨h.table, h.chain⟩
    · rw [start_fresh (by simpa using hs)]
      exact ⟨h.table, fun _ => ⟨.closed h.table rfl, by simp⟩⟩
  | finish =>
    simp only [Decoder.call, Except.ok.injEq, Prod.mk.injEq] at hc
    rw [← hc.2]
    exact ⟨h.table, fun hs => by simp [Decoder.finish, Level.reset] at hs⟩
  | setMaxFile n =>
    simp only [Decoder.call, Except.ok.injEq, Prod.mk.injEq] at hc
    rw [← hc.2]
    exact ⟨h.table, fun hs => ⟨(h.chain hs).1.congr rfl rfl, (h.chain hs).2⟩⟩
  | setMaxWin n =>
    simp only [Decoder.call, Except.ok.injEq, Prod.mk.injEq] at hc
    rw [← hc.2]
    unfold Decoder.setMaxWin
    split
    · exact ⟨h.table, h.chain⟩
    · exact ⟨h.table, fun hs => ⟨(h.chain hs).1.congr rfl rfl, (h.chain hs).2⟩⟩
  | setAllowTarget b =>
    simp only [Decoder.call, Except.ok.injEq, Prod.mk.injEq] at hc
    rw [← hc.2]
    unfold Decoder.setAllowTarget
    split
    · exact ⟨h.table, h.chain⟩
    · exact ⟨h.table, fun hs => ⟨(h.chain hs).1.congr rfl rfl, (h.chain hs).2⟩⟩
  | chunk data =>
    by_cases hs : d.top.started = true
    · simp only [Decoder.call, decodeChunk_eq] at hc
      obtain ⟨i1, i2⟩ := chunk_typed (h.inv hs).1 (h.chain hs) data
      cases hr : chunkRun d.top d.nested data with
      | fault f => simp [hr] at hc
      | error L o =>
        simp only [hr, Except.ok.injEq, Prod.mk.injEq] at hc
        rw [← hc.2]
        refine ⟨i2 _ _ hr, fun hs' => ?_⟩
        have := ((chunk_inv (h.inv hs).1 data).2.1 _ _ hr).stopped
        simp only [this] at hs'
        exact absurd hs' (by simp)
      | ok L ns o =>
        simp only [hr, Except.ok.injEq, Prod.mk.injEq] at hc
        rw [← hc.2]
        exact ⟨(i1 _ _ _ hr).1.types, fun _ => i1 _ _ _ hr⟩
    · rw [chunk_stopped (by simpa using hs)] at hc
      simp only [Except.ok.injEq, Prod.mk.injEq] at hc
      rw [← hc.2]
      exact ⟨h.table, fun hs => by simp [Level.reset] at hs⟩

theorem DecTyped.calls {d d' : Decoder} {cs : List DecoderCall} {rs : List DecoderReply} (h : DecTyped d)
    (hc : d.calls cs = .ok (rs, d')) : DecTyped d' := by
  induction cs generalizing d rs with
  | nil =>
    simp only [Decoder.calls, Except.ok.injEq, Prod.mk.injEq] at hc
    rw [← hc.2]; exact h
  | cons c cs ih =>
    obtain ⟨r, d1, rs', h1, h2, _⟩ := calls_cons_ok hc
    exact ih (h.call h1) h2

/-- Where a call of a debug build ends, and what a release build does then. -/
theorem callSite_cases {d : Decoder} (h : DecTyped d) {c : DecoderCall} {x : Site} (hx : d.callSite c = some x) :
    (∃ dict, c = .start dict ∧ x = .startTwice ∧ d.top.started = true) ∨
    (∃ b, c = .setAllowTarget b ∧ x = .allowTargetLate ∧ d.top.started = true) ∨
    (∃ data, c = .chunk data ∧ x = .notStarted ∧ d.top.started = false) ∨
    (∃ data, c = .chunk data ∧ d.top.started = true ∧ x ∈ inputSites ∧ ∃ o d', d.call c = .ok (⟨false, o⟩, d')) := by
  cases c with
  | start dict =>
    simp only [Decoder.callSite] at hx
    split at hx
    · rename_i hs
      simp only [Option.some.injEq] at hx
      exact Or.inl ⟨dict, rfl, hx.symm, hs⟩
    · simp at hx
  | setAllowTarget b =>
    simp only [Decoder.callSite] at hx
    split at hx
    · rename_i hs
      simp only [Option.some.injEq] at hx
      exact Or.inr (Or.inl ⟨b, rfl, hx.symm, hs⟩)
    · simp at hx
  | setMaxFile n => simp [Decoder.callSite] at hx
  | setMaxWin n => simp [Decoder.callSite] at hx
  | finish =>
    exfalso
    simp only [Decoder.callSite] at hx
    split at hx
    · rename_i hs
      have hin : d.top.InPlan := by
        intro p hp
        rw [(h.inv hs).2] at hp
        simp at hp
      unfold Level.isCompleteSite at hx
      split at hx
      · simp at hx
      split at hx
      · simp at hx
      split at hx
      · simp at hx
      rw [hin.site] at hx
      simp at hx
    · simp at hx
  | chunk data =>
    right; right
    simp only [Decoder.callSite, Decoder.decodeChunkSite] at hx
    by_cases hs : d.top.started = true
    · right
      have hin : d.top.InPlan := by
        intro p hp
        rw [(h.inv hs).2] at hp
        simp at hp
      obtain ⟨k1, L', o, k2⟩ := chunk_site (h.inv hs).1 (h.chain hs) hin (Nat.le_refl _) hx
      refine ⟨data, rfl, hs, k1, o, { top := L', nested := [] }, ?_⟩
      simp only [Decoder.call, decodeChunk_eq, k2]
    · left
      have hs' : d.top.started = false := by simpa using hs
      refine ⟨data, rfl, ?_, hs'⟩
      have hd : ∃ n, d.depthBound data = n + 1 := ⟨_, rfl⟩
      obtain ⟨n, hn⟩ := hd
      rw [hn, decodeChunkSiteFuel, if_pos (by simp [hs'])] at hx
      simp only [Option.some.injEq] at hx
      exact hx.symm

theorem callSite_protocol {d : Decoder} (data : Bytes) (hs : d.top.started = false) : d.callSite (.chunk data) = some .notStarted := by
  simp only [Decoder.callSite, Decoder.decodeChunkSite]
  have hd : ∃ n, d.depthBound data = n + 1 := ⟨_, rfl⟩
  obtain ⟨n, hn⟩ := hd
  rw [hn, decodeChunkSiteFuel, if_pos (by simp [hs])]

end Vcd
