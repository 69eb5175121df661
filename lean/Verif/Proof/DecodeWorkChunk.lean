import Verif.Proof.DecodeWorkWindows
import Verif.Proof.Nesting

/-! # C66: the steps of `DecodeChunk` -/

namespace Vcd
open Spec

theorem decodeChunkWindowsW_steps {K M q : Nat} (hq : K + 9 ≤ 6 * q) {L : Level} (hn : NodeInv L)
    (hK : CellsLe K L) (hM : Limited M L) (s : Bytes) :
    (∀ L' ns' out, (decodeChunkWindowsW L s).1 = .ok L' ns' out → ns' = [] ∧ CellsLe K L' ∧
      (decodeChunkWindowsW L s).2 + L'.part ≤ (7 + q) * s.length + 2 * (K + 9) + 4 * out.length + L.part) ∧
    ((∀ L' ns' out, (decodeChunkWindowsW L s).1 ≠ .ok L' ns' out) →
      (decodeChunkWindowsW L s).2 ≤ (7 + q) * s.length + 2 * (K + 9) + 4 * L.room M + L.part) := by
  have hout := Nat.le_of_eq hn.out
  obtain ⟨h1, h2⟩ := windowLoopW_steps hq (s.length + 2) hn.inv hK hM hout s []
  have hf := windowLoopW_fst (s.length + 2) L s []
  have hu : L.unsent = 0 := by unfold Level.unsent; rw [hn.out]; omega
  have hcc : (if L.win = none then K + 9 else 2 * (K + 9)) ≤ 2 * (K + 9) := by split <;> omega
  have hA : (7 + q) * s.length = (6 + q) * s.length + s.length := by
    rw [show 7 + q = (6 + q) + 1 from by omega, Nat.add_mul]; omega
  unfold decodeChunkWindowsW
  rcases hx : windowLoopW (s.length + 2) L s [] with ⟨x, n⟩
  rw [hx] at h1 h2 hf
  dsimp only at h1 h2 hf
  cases x with
  | fault f => exact ⟨by simp, fun _ => by dsimp only; omega⟩
  | error o => exact ⟨by simp, fun _ => by dsimp only; omega⟩
  | done L1 r o =>
    obtain ⟨k1, k2⟩ := h2 L1 r o rfl
    obtain ⟨_, ⟨pre, hp⟩, _⟩ := (winRun_inv hn.inv hout s).1 _ _ _ hf.symm
    have hr : r.length ≤ s.length := by rw [hp, List.length_append]; omega
    refine ⟨fun L' ns' out h => ?_, fun h => ?_⟩
    · simp only [stepsThen_fst, endChunkW, endChunk_eq, ChunkResult.ok.injEq] at h
      obtain ⟨rfl, rfl, rfl⟩ := h
      refine ⟨rfl, fun c hc => k2 c hc, ?_⟩
      have e1 : (L1.ended r).part = L1.part := rfl
      have e2 : L1.text.length = L1.unsent := by simp [Level.text, Level.unsent]
      simp only [stepsThen_snd, endChunkW, e1, List.length_append, e2, List.length_nil] at k1 ⊢
      have e3 : L1.decoded.length - L1.outPos = L1.unsent := rfl
      omega
    · exact absurd rfl (h _ _ _)

/-- One unfolding of `decodeChunkFuelW`, after the file header. -/
def tableStepW (fuel : Nat) (L : Level) (ns : List Level) (s : Bytes) : ChunkResult × Nat :=
  match ns with
  | [] => decodeChunkWindowsW L s
  | n :: ns =>
    match decodeChunkFuelW fuel n ns s with
    | (.fault f, k) => (.fault f, k)
    | (.error _ _, k) => (failed L, k)
    | (.ok n' ns' text, k) => stepsThen k (afterCodeTableChunkW L n' ns' s text)

theorem decodeChunkFuelW_succ (fuel : Nat) (L : Level) (ns : List Level) (data : Bytes) :
    decodeChunkFuelW (fuel + 1) L ns data =
      if L.started = false then (.error L.reset [], 1)
      else
        stepsThen (1 + (if L.unparsed = [] then 0 else (L.unparsed ++ data).length)) <|
          match L.cache with
          | some _ => tableStepW fuel L ns (L.unparsed ++ data)
          | none =>
            match readFileHeaderW (L.unparsed ++ data) with
            | (.error, k) => (failed L, k)
            | (.endOfData, k) => stepsThen k (endChunkW L ns (L.unparsed ++ data) [])
            | (.ok hdr rest, k) => stepsThen k (tableStepW fuel (L.withHeader hdr) (nestedFor hdr ns) rest) := by
  rw [decodeChunkFuelW]
  by_cases hs : L.started = false
  · have hs' : (!L.started) = true := by rw [hs]; rfl
    rw [if_pos hs, if_pos hs']
  · have hs' : ¬ (!L.started) = true := by simpa using hs
    rw [if_neg hs, if_neg hs']
    dsimp only
    congr 1
    cases L.cache with
    | some c => cases ns <;> rfl
    | none =>
      dsimp only
      rcases readFileHeaderW (L.unparsed ++ data) with ⟨x, k⟩
      cases x with
      | error => rfl
      | endOfData => rfl
      | ok hdr rest =>
        obtain ⟨v, c⟩ := hdr
        cases c with
        | none => cases ns <;> rfl
        | some p => rfl

/-! ### Without a custom code table -/

theorem CellsLe.default {K : Nat} (hK : 772 ≤ K) {L : Level} (h : L.cache = some AddrCache.newDefault) : CellsLe K L := by
  intro c hc _
  rw [h] at hc
  simp only [Option.some.injEq] at hc
  subst hc
  exact hK

theorem Limited.config {M : Nat} {L L' : Level} (h : Limited M L) (hs : SameConfig L L') (ht : L'.total = 0) : Limited M L' := by
  refine ⟨by omega, ?_⟩
  rw [hs.maxFile, hs.planned]
  exact h.2

/-- A chunk that does not bring a custom code table. -/
theorem plainChunkW_steps {K M q : Nat} (hq : K + 9 ≤ 6 * q) (h772 : 772 ≤ K) {fuel : Nat} {L : Level} (hn : NodeInv L)
    (hK : CellsLe K L) (hM : Limited M L) (data : Bytes)
    (hp : L.cache = none → ∀ hdr rest, readFileHeader (L.unparsed ++ data) = .ok hdr rest → hdr.caches = none) :
    (∀ L' ns' out, (decodeChunkFuelW (fuel + 1) L [] data).1 = .ok L' ns' out → ns' = [] ∧ CellsLe K L' ∧
      (decodeChunkFuelW (fuel + 1) L [] data).2 + L'.part ≤
        (8 + q) * (L.unparsed ++ data).length + (2 * (K + 9) + 1) + 4 * out.length + L.part) ∧
    ((∀ L' ns' out, (decodeChunkFuelW (fuel + 1) L [] data).1 ≠ .ok L' ns' out) →
      (decodeChunkFuelW (fuel + 1) L [] data).2 ≤
        (8 + q) * (L.unparsed ++ data).length + (2 * (K + 9) + 1) + 4 * L.room M + L.part) := by
  rw [decodeChunkFuelW_succ, if_neg (by rw [hn.started]; simp)]
  generalize hs : L.unparsed ++ data = s at *
  have hA : (8 + q) * s.length = (7 + q) * s.length + s.length := by
    rw [show 8 + q = (7 + q) + 1 from by omega, Nat.add_mul]; omega
  have happ : (if L.unparsed = [] then 0 else s.length) ≤ s.length := by split <;> omega
  cases hc : L.cache with
  | some c =>
    obtain ⟨w1, w2⟩ := decodeChunkWindowsW_steps hq hn hK hM s
    refine ⟨fun L' ns' out h => ?_, fun h => ?_⟩
    · obtain ⟨k1, k2, k3⟩ := w1 L' ns' out h
      refine ⟨k1, k2, ?_⟩
      simp only [stepsThen_snd, tableStepW]; omega
    · have := w2 h
      simp only [stepsThen_snd, tableStepW]; omega
  | none =>
    obtain ⟨f1, f2, f3⟩ := hn.fresh hc
    obtain ⟨r1, r2⟩ := ReadsAt.fileHeader s
    have rf := readFileHeaderW_fst s
    have hroom : L.room M = M := by unfold Level.room Level.owed; rw [f1, f3]; simp
    dsimp only
    rcases hx : readFileHeaderW s with ⟨x, k⟩
    rw [hx] at r1 r2 rf
    dsimp only at r1 r2 rf
    have hsq : 2 * s.length ≤ (7 + q) * s.length := Nat.mul_le_mul_right _ (by omega)
    cases x with
    | error =>
      refine ⟨fun L' ns' out h => by simp [failed] at h, fun h => ?_⟩
      simp only [stepsThen_snd]; omega
    | endOfData =>
      refine ⟨fun L' ns' out h => ?_, fun h => absurd rfl (h _ _ _)⟩
      simp only [stepsThen_fst, endChunkW, endChunk_eq, ChunkResult.ok.injEq] at h
      obtain ⟨rfl, rfl, rfl⟩ := h
      refine ⟨rfl, fun c hc => hK c hc, ?_⟩
      have e1 : (L.ended s).part = L.part := rfl
      have e2 := hn.out
      simp only [stepsThen_snd, endChunkW, e1]
      omega
    | ok hdr rest =>
      have r3 := r2 hdr rest rfl
      have hpl := hp hc hdr rest rf.symm
      obtain ⟨v1, v2, v3, v4, v5, _, _, _, v6⟩ := withHeader_inv hn hc hdr
      have hca : (L.withHeader hdr).cache = some AddrCache.newDefault := by unfold Level.withHeader; rw [hpl]
      obtain ⟨w1, w2⟩ := decodeChunkWindowsW_steps hq v1 (CellsLe.default h772 hca) (hM.config v6 v5) rest
      have hpart : (L.withHeader hdr).part = 0 := by unfold Level.part; rw [v3]; simp
      have hroom2 : (L.withHeader hdr).room M = M := by unfold Level.room Level.owed; rw [v4, v5]; simp
      have hmul : (7 + q) * rest.length + k ≤ (7 + q) * s.length := by
        have := Nat.mul_le_mul_left (7 + q) (show rest.length + k ≤ s.length by omega)
        rw [Nat.mul_add] at this
        have : k ≤ (7 + q) * k := Nat.le_mul_of_pos_left _ (by omega)
        omega
      dsimp only
      have hnest : nestedFor hdr [] = [] := by unfold nestedFor; rw [hpl]
      rw [hnest]
      refine ⟨fun L' ns' out h => ?_, fun h => ?_⟩
      · obtain ⟨k1, k2, k3⟩ := w1 L' ns' out h
        refine ⟨k1, k2, ?_⟩
        simp only [stepsThen_snd, tableStepW]; omega
      · have := w2 h
        simp only [stepsThen_snd, tableStepW]; omega

/-! ### In general -/

theorem CellsLe.any (L : Level) : CellsLe 65024 L := by
  intro c _ h
  unfold AddrCache.init at h
  split at h
  · exact absurd rfl h
  · unfold AddrCache.cells
    omega

/-- The number of bytes a chunk of `data` makes available. -/
def chainInput (L : Level) (ns : List Level) (data : Bytes) : Nat := ((L :: ns).map fun L => L.unparsed.length).sum + data.length

/-- What one of several nested decoders needs for `H` bytes. -/
def levelSteps (H : Nat) : Nat := 10847 * H + 142357

theorem afterCodeTableChunkW_steps {L n : Level} {ns : List Level} {s text : Bytes} {M : Nat} (hL : NodeInv L) (hc : L.cache ≠ none)
    (hd : L.decoded = []) (hw : L.win = none) (ht : L.total = 0) (hM : Limited M L) :
    (∀ L' ns' out, (afterCodeTableChunkW L n ns s text).1 = .ok L' ns' out →
      (afterCodeTableChunkW L n ns s text).2 + L'.part ≤ 10846 * s.length + 134674 + 4 * out.length) ∧
    ((∀ L' ns' out, (afterCodeTableChunkW L n ns s text).1 ≠ .ok L' ns' out) →
      (afterCodeTableChunkW L n ns s text).2 ≤ 10846 * s.length + 134674 + 4 * M) := by
  unfold afterCodeTableChunkW
  dsimp only
  split
  · refine ⟨fun L' ns' out h => ?_, fun h => absurd rfl (h _ _ _)⟩
    simp only [endChunkW, endChunk_eq, ChunkResult.ok.injEq] at h
    obtain ⟨rfl, rfl, rfl⟩ := h
    have e1 : (Level.ended { L with tableString := L.tableString ++ text } []).part = 0 := by
      have : L.part = 0 := by unfold Level.part; rw [hd]; simp
      exact this
    rw [e1]
    simp only [endChunkW, hd, List.length_nil]
    omega
  split
  · exact ⟨fun L' ns' out h => by simp at h, fun _ => Nat.zero_le _⟩
  split
  · split
    · exact ⟨fun L' ns' out h => by simp at h, fun _ => Nat.zero_le _⟩
    · rename_i hstr hle
      have hcts : codeTableSize = 1536 := rfl
      generalize hL2 : ({ L with tableString := [], table := if (CodeTable.ofBytes (L.tableString ++ text) hstr).validate ((L.cache.map AddrCache.lastMode).getD 0) = true then CodeTable.ofBytes (L.tableString ++ text) hstr else L.table } : Level) = L2
      have hn2 : NodeInv L2 := by rw [← hL2]; exact hL.closed_windows hw hc _ _
      have hM2 : Limited M L2 := by rw [← hL2]; exact hM
      have hp2 : L2.part = 0 := by rw [← hL2]; unfold Level.part; simp [hd]
      have hr2 : L2.room M = M := by rw [← hL2]; unfold Level.room Level.owed; simp [hw, ht]
      obtain ⟨w1, w2⟩ := decodeChunkWindowsW_steps (q := 10839) (by omega) hn2 (.any _) hM2 (s.drop (s.length - n.unparsed.length))
      have hlen : (s.drop (s.length - n.unparsed.length)).length ≤ s.length := by rw [List.length_drop]; omega
      refine ⟨fun L' ns' out h => ?_, fun h => ?_⟩
      · obtain ⟨_, _, k3⟩ := w1 L' ns' out h
        simp only [stepsThen_snd]; omega
      · have := w2 h
        simp only [stepsThen_snd]; omega
  · exact ⟨fun L' ns' out h => by simp at h, fun _ => Nat.zero_le _⟩

theorem nest_limited {n : Level} {ns : List Level} (h : NestInv n ns) : Limited 1536 n ∧ n.room 1536 ≤ 1536 ∧ n.part ≤ 1536 := by
  have e : codeTableSize = 1536 := rfl
  have h1 := h.total
  have h2 := h.small
  have h3 := h.max
  refine ⟨⟨by omega, Or.inr h.planned⟩, ?_, ?_⟩
  · unfold Level.room; omega
  · unfold Level.part; omega

/-- All steps of a nested decoder. -/
theorem nestedW_steps {fuel : Nat} {n : Level} {ns : List Level} {s : Bytes} (hfuel : chunkDepth n ns s ≤ fuel) (h : ChainInv n ns)
    (hn : NestInv n ns) {B : Nat}
    (h1 : ∀ L' ns' out, (decodeChunkFuelW fuel n ns s).1 = .ok L' ns' out →
      (decodeChunkFuelW fuel n ns s).2 + L'.part ≤ B + 4 * out.length + n.part)
    (h2 : (∀ L' ns' out, (decodeChunkFuelW fuel n ns s).1 ≠ .ok L' ns' out) →
      (decodeChunkFuelW fuel n ns s).2 ≤ B + 4 * n.room 1536 + n.part) :
    (decodeChunkFuelW fuel n ns s).2 ≤ B + 7680 := by
  obtain ⟨k1, k2, k3⟩ := nest_limited hn
  have hf := decodeChunkFuelW_fst fuel n ns s
  have he : decodeChunkFuel fuel n ns s = chunkRun n ns s := decodeChunkFuel_eq hfuel (Nat.le_refl _)
  cases hx : (decodeChunkFuelW fuel n ns s).1 with
  | ok L' ns' out =>
    have h3 := h1 _ _ _ hx
    have hok := (chunk_inv h s).1 _ _ _ (he.symm.trans (hf.symm.trans hx))
    have a1 := hok.total
    have a2 := hok.plan _ hn.planned hn.max
    have a3 := hn.total
    have e : codeTableSize = 1536 := rfl
    have hout : out.length + L'.owed ≤ 1536 := by omega
    omega
  | error L' out =>
    have := h2 (by rw [hx]; simp)
    omega
  | fault f =>
    have := h2 (by rw [hx]; simp)
    omega

theorem tableStepW_steps {M fuel : Nat} {L n : Level} {ns : List Level} {s : Bytes} {B : Nat} (hL : NodeInv L) (hc : L.cache ≠ none)
    (hd : L.decoded = []) (hw : L.win = none) (ht : L.total = 0) (hM : Limited M L) (hB : (decodeChunkFuelW fuel n ns s).2 ≤ B) :
    (∀ L' ns' out, (tableStepW fuel L (n :: ns) s).1 = .ok L' ns' out →
      (tableStepW fuel L (n :: ns) s).2 + L'.part ≤ B + 10846 * s.length + 134674 + 4 * out.length) ∧
    ((∀ L' ns' out, (tableStepW fuel L (n :: ns) s).1 ≠ .ok L' ns' out) →
      (tableStepW fuel L (n :: ns) s).2 ≤ B + 10846 * s.length + 134674 + 4 * M) := by
  unfold tableStepW
  dsimp only
  rcases hx : decodeChunkFuelW fuel n ns s with ⟨x, k⟩
  rw [hx] at hB
  dsimp only at hB
  cases x with
  | fault f => exact ⟨by simp, fun _ => by dsimp only; omega⟩
  | error L' o => exact ⟨by simp [failed], fun _ => by dsimp only; omega⟩
  | ok n' ns' text =>
    obtain ⟨a1, a2⟩ := afterCodeTableChunkW_steps (n := n') (ns := ns') (s := s) (text := text) hL hc hd hw ht hM
    refine ⟨fun L' ns'' out h => ?_, fun h => ?_⟩
    · have := a1 L' ns'' out h
      simp only [stepsThen_snd]; omega
    · have := a2 h
      simp only [stepsThen_snd]; omega

theorem levelSteps_mono {a b : Nat} (h : a ≤ b) : levelSteps a ≤ levelSteps b := by unfold levelSteps; omega

theorem chunkW_steps {M fuel : Nat} {L : Level} {ns : List Level} {data : Bytes} (hfuel : chunkDepth L ns data ≤ fuel)
    (h : ChainInv L ns) (hM : Limited M L) :
    (∀ L' ns' out, (decodeChunkFuelW fuel L ns data).1 = .ok L' ns' out →
      (decodeChunkFuelW fuel L ns data).2 + L'.part ≤
        (ns.length + 1 + chainInput L ns data / 7) * levelSteps (chainInput L ns data) + 4 * out.length + L.part) ∧
    ((∀ L' ns' out, (decodeChunkFuelW fuel L ns data).1 ≠ .ok L' ns' out) →
      (decodeChunkFuelW fuel L ns data).2 ≤
        (ns.length + 1 + chainInput L ns data / 7) * levelSteps (chainInput L ns data) + 4 * L.room M + L.part) := by
  induction fuel generalizing L ns data M with
  | zero => unfold chunkDepth at hfuel; omega
  | succ fuel ih =>
    have hnode := h.node
    cases ns with
    | cons n ns =>
      obtain ⟨_, hw, hnest, hch⟩ := h
      have hroom : L.room M = M := by unfold Level.room Level.owed; rw [hw.win, hw.total]; simp
      have hun : L.unparsed ++ data = data := by rw [hw.unparsed, List.nil_append]
      have hpart : L.part = 0 := by unfold Level.part; rw [hw.decoded]; simp
      have hfu : chunkDepth n ns data ≤ fuel := by
        simp only [chunkDepth, List.map_cons, List.sum_cons] at hfuel ⊢; omega
      have hH : chainInput L (n :: ns) data = chainInput n ns data := by
        simp only [chainInput, List.map_cons, List.sum_cons, hw.unparsed, List.length_nil]; omega
      have hle : data.length ≤ chainInput n ns data := by unfold chainInput; omega
      obtain ⟨i1, i2⟩ := ih hfu hch (nest_limited hnest).1
      have hB := nestedW_steps hfu hch hnest i1 i2
      obtain ⟨t1, t2⟩ := tableStepW_steps (M := M) hnode hw.cache hw.decoded hw.win hw.total hM hB
      have hmul : (ns.length + 1 + chainInput n ns data / 7) * levelSteps (chainInput n ns data) + levelSteps (chainInput n ns data) =
          ((n :: ns).length + 1 + chainInput n ns data / 7) * levelSteps (chainInput n ns data) := by
        rw [List.length_cons, show ns.length + 1 + 1 + chainInput n ns data / 7 = Nat.succ (ns.length + 1 + chainInput n ns data / 7) from by omega,
          Nat.succ_mul]
      have hls : 1 + 7680 + 10846 * data.length + 134674 ≤ levelSteps (chainInput n ns data) := by unfold levelSteps; omega
      rw [decodeChunkFuelW_succ, if_neg (by rw [hnode.started]; simp), if_pos hw.unparsed, hun, hH]
      cases hc : L.cache with
      | none => exact absurd hc hw.cache
      | some c =>
        refine ⟨fun L' ns' out h => ?_, fun h => ?_⟩
        · have := t1 L' ns' out h
          simp only [stepsThen_snd]; omega
        · have := t2 h
          simp only [stepsThen_snd]; omega
    | nil =>
      have hH : chainInput L [] data = (L.unparsed ++ data).length := by
        simp [chainInput]
      have hlev : levelSteps (L.unparsed ++ data).length ≤
          ([] : List Level).length.succ.add ((L.unparsed ++ data).length / 7) * levelSteps (L.unparsed ++ data).length :=
        Nat.le_mul_of_pos_left _ (by simp [Nat.add_eq]; omega)
      have hlev : levelSteps (L.unparsed ++ data).length ≤
          (([] : List Level).length + 1 + (L.unparsed ++ data).length / 7) * levelSteps (L.unparsed ++ data).length := hlev
      rw [hH]
      have hdef : levelSteps (L.unparsed ++ data).length = 10847 * (L.unparsed ++ data).length + 142357 := rfl
      by_cases hp : L.cache = none → ∀ hdr rest, readFileHeader (L.unparsed ++ data) = .ok hdr rest → hdr.caches = none
      · obtain ⟨p1, p2⟩ := plainChunkW_steps (q := 10839) (K := 65024) (fuel := fuel) (by omega) (by omega) hnode (.any L) hM data hp
        refine ⟨fun L' ns' out h => ?_, fun h => ?_⟩
        · have := (p1 L' ns' out h).2.2
          omega
        · have := p2 h
          omega
      · obtain ⟨hc, hp⟩ := Classical.not_imp.1 hp
        obtain ⟨hdr, hp⟩ := Classical.not_forall.1 hp
        obtain ⟨rest, hp⟩ := Classical.not_forall.1 hp
        obtain ⟨hr, hp⟩ := Classical.not_imp.1 hp
        cases hcs : hdr.caches with
        | none => exact absurd hcs hp
        | some p =>
          have h7 := readFileHeader_custom_pre hr hcs
          obtain ⟨v1, v2, v3, v4, v5, _, _, _, v6⟩ := withHeader_inv hnode hc hdr
          obtain ⟨f1, f2, f3⟩ := forCodeTable_inv
          obtain ⟨g1, g2, g3⟩ := hnode.fresh hc
          have hroom : L.room M = M := by unfold Level.room Level.owed; rw [g1, g3]; simp
          have hH2 : chainInput Level.forCodeTable [] rest = rest.length := by
            have : Level.forCodeTable.unparsed = [] := rfl
            simp [chainInput, this]
          have hfu : chunkDepth Level.forCodeTable [] rest ≤ fuel := by
            have : Level.forCodeTable.unparsed = [] := rfl
            simp only [List.length_append] at h7
            simp only [chunkDepth, List.map_cons, List.sum_cons, List.map_nil, List.sum_nil, this, List.length_nil] at hfuel ⊢
            omega
          obtain ⟨i1, i2⟩ := ih hfu f3 (nest_limited f2).1
          have hB := nestedW_steps hfu f3 f2 i1 i2
          obtain ⟨t1, t2⟩ := tableStepW_steps (M := M) v1 v2 v3 v4 v5 (hM.config v6 v5) hB
          rw [hH2] at t1 t2
          have rf := readFileHeaderW_fst (L.unparsed ++ data)
          obtain ⟨r1, r2⟩ := ReadsAt.fileHeader (L.unparsed ++ data)
          rw [decodeChunkFuelW_succ, if_neg (by rw [hnode.started]; simp), hc]
          dsimp only
          rcases hx : readFileHeaderW (L.unparsed ++ data) with ⟨x, k⟩
          rw [hx] at rf r1 r2
          dsimp only at rf
          rw [hr] at rf
          subst rf
          have r3 := r2 hdr rest rfl
          dsimp only at r3 ⊢
          have hnf : nestedFor hdr [] = [Level.forCodeTable] := by unfold nestedFor; rw [hcs]
          rw [hnf]
          generalize (L.unparsed ++ data).length = H at *
          have happ : (if L.unparsed = [] then 0 else H) ≤ H := by split <;> omega
          have hmul : (([] : List Level).length + 1 + rest.length / 7) * levelSteps rest.length + levelSteps H ≤
              (([] : List Level).length + 1 + H / 7) * levelSteps H := by
            have a : (([] : List Level).length + 1 + rest.length / 7) * levelSteps rest.length ≤ (H / 7) * levelSteps H :=
              Nat.mul_le_mul (by rw [List.length_nil]; omega) (levelSteps_mono (by omega))
            have b : (([] : List Level).length + 1 + H / 7) * levelSteps H = (H / 7) * levelSteps H + levelSteps H := by
              rw [List.length_nil, show 0 + 1 + H / 7 = H / 7 + 1 from by omega, Nat.add_mul, Nat.one_mul]
            omega
          refine ⟨fun L' ns' out h => ?_, fun h => ?_⟩
          · have := t1 L' ns' out h
            simp only [stepsThen_snd]; omega
          · have := t2 h
            simp only [stepsThen_snd]; omega

end Vcd
