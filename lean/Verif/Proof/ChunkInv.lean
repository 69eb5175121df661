import Verif.Proof.Chunk

/-!
# `DecodeChunk`: recursion over nested decoders and invariant
-/

namespace Vcd
open Spec

/-! ### Recursion -/

/-- See `Decoder.depthBound`. -/
def chunkDepth (L : Level) (ns : List Level) (data : Bytes) : Nat :=
  ((L :: ns).map fun L => L.unparsed.length + 1).sum + data.length + 1

/-- `DecodeChunk` of a decoder given as its list of levels. -/
def chunkRun (L : Level) (ns : List Level) (data : Bytes) : ChunkResult :=
  decodeChunkFuel (chunkDepth L ns data) L ns data

/-- The result of a failing call. -/
def failed (L : Level) : ChunkResult := .error ({ L with unparsed := [], decoded := [] } : Level).reset []

/-- `ReadCustomCodeTable` and the rest of `DecodeChunk`, given how nested decoders behave. -/
def tableStep (rec : Level → List Level → Bytes → ChunkResult) (L : Level) (ns : List Level) (s : Bytes) :
    ChunkResult :=
  match ns with
  | [] => decodeChunkWindows L s
  | n :: ns =>
    match rec n ns s with
    | .fault f => .fault f
    | .error _ _ => failed L
    | .ok n' ns' text => afterCodeTableChunk L n' ns' s text

/-- The members after the file header has been read. -/
def Level.withHeader (L : Level) (hdr : FileHeader) : Level :=
  match hdr.caches with
  | none => { L with version := hdr.version, cache := some AddrCache.newDefault }
  | some (near, same) =>
    { L with version := hdr.version, cache := some (AddrCache.new near same), tableString := [] }

/-- The nested decoders after the file header has been read. -/
def nestedFor (hdr : FileHeader) (ns : List Level) : List Level :=
  match hdr.caches with
  | none => ns
  | some _ => [Level.forCodeTable]

/-- One unfolding of `DecodeChunk`. -/
def chunkStep (rec : Level → List Level → Bytes → ChunkResult) (L : Level) (ns : List Level)
    (data : Bytes) : ChunkResult :=
  if L.started = false then .error L.reset []
  else
    match L.cache with
    | some _ => tableStep rec L ns (L.unparsed ++ data)
    | none =>
      match readFileHeader (L.unparsed ++ data) with
      | .error => failed L
      | .endOfData => endChunk L ns (L.unparsed ++ data) []
      | .ok hdr rest => tableStep rec (L.withHeader hdr) (nestedFor hdr ns) rest

theorem decodeChunkFuel_succ (fuel : Nat) (L : Level) (ns : List Level) (data : Bytes) :
    decodeChunkFuel (fuel + 1) L ns data = chunkStep (decodeChunkFuel fuel) L ns data := by
  rw [decodeChunkFuel, chunkStep]
  by_cases hs : L.started = false
  · have hs' : (!L.started) = true := by rw [hs]; rfl
    rw [if_pos hs, if_pos hs']
  · have hs' : ¬ (!L.started) = true := by simpa using hs
    rw [if_neg hs, if_neg hs']
    dsimp only
    cases L.cache with
    | some c => cases ns <;> rfl
    | none =>
      dsimp only
      cases readFileHeader (L.unparsed ++ data) with
      | error => rfl
      | endOfData => rfl
      | ok hdr rest =>
        obtain ⟨v, c⟩ := hdr
        cases c with
        | none => cases ns <;> rfl
        | some p => rfl

theorem readFileHeader_ok_pre {s r : Bytes} {v : FileHeader} (h : readFileHeader s = .ok v r) :
    ∃ pre, s = pre ++ r ∧ 5 ≤ pre.length := by
  obtain ⟨pre, h1, h2⟩ := Local.readFileHeader.ok h
  refine ⟨pre, h1, ?_⟩
  have := h2 []
  rw [List.append_nil] at this
  exact readFileHeader_ok_len this

theorem tableStep_congr {f g : Level → List Level → Bytes → ChunkResult} {L : Level} {ns : List Level}
    {s : Bytes} (h : ∀ n ns', ns = n :: ns' → f n ns' s = g n ns' s) :
    tableStep f L ns s = tableStep g L ns s := by
  cases ns with
  | nil => rfl
  | cons n ns => rw [tableStep, tableStep, h n ns rfl]

theorem chunkStep_congr {f g : Level → List Level → Bytes → ChunkResult} {L : Level} {ns : List Level}
    {data : Bytes}
    (h : ∀ n ns' s, chunkDepth n ns' s < chunkDepth L ns data → f n ns' s = g n ns' s) :
    chunkStep f L ns data = chunkStep g L ns data := by
  unfold chunkStep
  cases hs : L.started with
  | false => rfl
  | true =>
    simp only [Bool.true_eq_false, if_false]
    cases L.cache with
    | some c =>
      simp only
      apply tableStep_congr
      rintro n ns' rfl
      apply h
      simp only [chunkDepth, List.map_cons, List.sum_cons, List.length_append]
      omega
    | none =>
      simp only
      cases hr : readFileHeader (L.unparsed ++ data) with
      | error => rfl
      | endOfData => rfl
      | ok hdr rest =>
        simp only
        obtain ⟨pre, h1, h2⟩ := readFileHeader_ok_pre hr
        have hl := congrArg List.length h1
        simp only [List.length_append] at hl
        apply tableStep_congr
        intro n ns' hn
        apply h
        unfold nestedFor at hn
        split at hn
        · subst hn
          simp only [chunkDepth, List.map_cons, List.sum_cons]
          omega
        · simp only [List.cons.injEq] at hn
          obtain ⟨rfl, rfl⟩ := hn
          have : Level.forCodeTable.unparsed = [] := rfl
          simp only [chunkDepth, List.map_cons, List.sum_cons, List.map_nil, List.sum_nil, this,
            List.length_nil]
          omega

theorem decodeChunkFuel_eq {f g : Nat} {L : Level} {ns : List Level} {data : Bytes}
    (hf : chunkDepth L ns data ≤ f) (hg : chunkDepth L ns data ≤ g) :
    decodeChunkFuel f L ns data = decodeChunkFuel g L ns data := by
  induction f generalizing g L ns data with
  | zero => unfold chunkDepth at hf; omega
  | succ f ih =>
    cases g with
    | zero => unfold chunkDepth at hg; omega
    | succ g =>
      rw [decodeChunkFuel_succ, decodeChunkFuel_succ]
      apply chunkStep_congr
      intro n ns' s h
      exact ih (by omega) (by omega)

/-- `DecodeChunk` without the bound. -/
theorem chunkRun_eq (L : Level) (ns : List Level) (data : Bytes) :
    chunkRun L ns data = chunkStep chunkRun L ns data := by
  have h1 : chunkRun L ns data = decodeChunkFuel (chunkDepth L ns data + 1) L ns data :=
    decodeChunkFuel_eq (Nat.le_refl _) (by omega)
  rw [h1, decodeChunkFuel_succ]
  apply chunkStep_congr
  intro n ns' s h
  exact decodeChunkFuel_eq (by omega) (Nat.le_refl _)

theorem decodeChunk_eq (d : Decoder) (data : Bytes) : d.decodeChunk data = chunkRun d.top d.nested data := rfl

/-! ### Invariant -/

/-- What holds for every level of a started decoder between two calls. -/
structure NodeInv (L : Level) : Prop where
  started : L.started = true
  inv : LevelInv L
  quiet : L.Quiet
  out : L.outPos = L.decoded.length
  fresh : L.cache = none → L.win = none ∧ L.decoded = [] ∧ L.total = 0

/-- A level that waits for its nested decoder `n`. -/
structure WaitInv (L n : Level) : Prop where
  cache : L.cache ≠ none
  unparsed : L.unparsed = []
  decoded : L.decoded = []
  win : L.win = none
  total : L.total = 0
  str : L.tableString = n.decoded

/-- A level waits for input. -/
structure Waits (n : Level) (ns : List Level) : Prop where
  hdr : n.cache = none → readFileHeader n.unparsed = .endOfData
  idle : n.cache ≠ none → ns = [] → decodeWindow n n.unparsed = .endOfData n n.unparsed
  notDone : n.win = none → n.reachedPlanned = false

/-- A nested decoder that is not finished yet. -/
structure NestInv (n : Level) (ns : List Level) : Prop where
  target : n.allowTarget = true
  planned : n.planned = some codeTableSize
  total : n.total = n.decoded.length + n.owed
  small : n.decoded.length < codeTableSize
  max : n.total ≤ codeTableSize
  waits : Waits n ns

/-- Invariant of a decoder and its nested decoders. -/
def ChainInv : Level → List Level → Prop
  | L, [] => NodeInv L
  | L, n :: ns => NodeInv L ∧ WaitInv L n ∧ NestInv n ns ∧ ChainInv n ns

theorem ChainInv.node {L : Level} {ns : List Level} (h : ChainInv L ns) : NodeInv L := by
  cases ns with
  | nil => exact h
  | cons n ns => exact h.1

/-- Settings and the source, which a decode does not change. -/
structure SameConfig (L L' : Level) : Prop where
  started : L'.started = L.started
  dict : L'.dict = L.dict
  planned : L'.planned = L.planned
  maxFile : L'.maxFile = L.maxFile
  maxWin : L'.maxWin = L.maxWin
  allowTarget : L'.allowTarget = L.allowTarget

theorem SameConfig.refl (L : Level) : SameConfig L L := ⟨rfl, rfl, rfl, rfl, rfl, rfl⟩

theorem SameConfig.trans {a b c : Level} (h : SameConfig a b) (h' : SameConfig b c) : SameConfig a c :=
  ⟨h'.started.trans h.started, h'.dict.trans h.dict, h'.planned.trans h.planned,
   h'.maxFile.trans h.maxFile, h'.maxWin.trans h.maxWin, h'.allowTarget.trans h.allowTarget⟩

/-- The level has decoded everything it was asked for. -/
def Level.Done (L : Level) : Prop := L.reachedPlanned = true ∧ L.win = none

/-- What a successful `DecodeChunk` guarantees. -/
structure ChunkOk (L : Level) (ns : List Level) (data : Bytes) (L' : Level) (ns' : List Level)
    (out : Bytes) : Prop where
  inv : ChainInv L' ns'
  config : SameConfig L L'
  total : L'.total + L.owed = L.total + L'.owed + out.length
  file : L.total ≤ L.maxFile → L'.total ≤ L'.maxFile
  plan : ∀ p, L.planned = some p → L.total ≤ p → L'.total ≤ p
  kept : L.allowTarget = true → L'.decoded = L.decoded ++ out
  suffix : ∃ pre, L.unparsed ++ data = pre ++ L'.unparsed
  hdr : L'.cache = none → readFileHeader L'.unparsed = .endOfData
  idle : L'.cache ≠ none → ns' = [] → decodeWindow L' L'.unparsed = .endOfData L' L'.unparsed ∨ L'.Done
  bound : Waits L ns → L'.Done → L'.unparsed.length ≤ data.length
  near : ns = [] → ∀ c, L.cache = some c → ns' = [] ∧ L'.table = L.table ∧
    L'.tableString = L.tableString ∧ L'.version = L.version ∧ ∃ c', L'.cache = some c' ∧ c'.nearSize = c.nearSize
  some : L.cache ≠ none → L'.cache ≠ none ∧ L'.version = L.version
  plain : L.cache = none →
    (readFileHeader (L.unparsed ++ data) = .endOfData ∧ L' = L.setUnparsed (L.unparsed ++ data) ∧ ns' = []) ∨
    ∃ hdr rest, readFileHeader (L.unparsed ++ data) = .ok hdr rest ∧ L'.version = hdr.version ∧ L'.cache ≠ none ∧
      (hdr.caches = none → ns' = [] ∧ L'.table = L.table ∧ L'.tableString = L.tableString ∧
        ∃ c', L'.cache = Option.some c' ∧ c'.nearSize = 4)

/-- What a failing `DecodeChunk` guarantees. -/
structure ChunkErr (L : Level) (ns : List Level) (data : Bytes) (L' : Level) (out : Bytes) : Prop where
  stopped : L'.started = false
  maxFile : L'.maxFile = L.maxFile
  maxWin : L'.maxWin = L.maxWin
  allowTarget : L'.allowTarget = L.allowTarget
  file : L.total ≤ L.maxFile → L.total + out.length ≤ L.maxFile + L.owed
  none : L.allowTarget = true → out = []
  near : ns = [] → L.cache ≠ .none → L'.table = L.table ∧ L'.tableString = L.tableString
  plain : L.cache = .none → (∀ hdr rest, readFileHeader (L.unparsed ++ data) = .ok hdr rest → hdr.caches = .none) →
    L'.table = L.table ∧ L'.tableString = L.tableString

/-- What a faulting `DecodeChunk` guarantees. -/
structure ChunkFault (L : Level) (ns : List Level) (data : Bytes) (f : Fault) : Prop where
  any : f = .nearOverflow ∨ f = .cacheOob
  near : ns = [] → ∀ c, L.cache = some c → c.nearSize ≠ 254 → f = .nearOverflow
  plain : L.cache = .none → (∀ hdr rest, readFileHeader (L.unparsed ++ data) = .ok hdr rest → hdr.caches = .none) →
    f = .nearOverflow

/-! ### The loop over windows as the end of `DecodeChunk` -/

def Level.setOut (L : Level) (p : Nat) : Level := { L with outPos := p }

def WinResult.setOut (p : Nat) : WinResult → WinResult
  | .ok L r => .ok (L.setOut p) r
  | .endOfData L r => .endOfData (L.setOut p) r
  | r => r

theorem decodeWindowBody_setOut (L : Level) (u : Nat) (w : OpenWindow) (c : AddrCache)
    (s : Bytes) :
    decodeWindowBody (L.setOut u) w c s = (decodeWindowBody L w c s).setOut u := by
  cases hi : w.hdr.interleaved with
  | true =>
    rw [dwb_inter hi, dwb_inter hi]
    change (match bodyRun (L.env w.hdr) (interBody L w c s) with
      | .fault f => _ | .error => _ | .ok b' => _ | .endOfData b' => _) = _
    cases bodyRun (L.env w.hdr) (interBody L w c s) with
    | fault f => rfl
    | error => rfl
    | ok b =>
      simp only
      have : bodyEndOk ((L.setOut u).env w.hdr) b = bodyEndOk (L.env w.hdr) b := rfl
      rw [this]
      split <;> rfl
    | endOfData b =>
      simp only
      split <;> rfl
  | false =>
    rw [dwb_std hi, dwb_std hi]
    change (match bodyRun (L.env w.hdr) (stdBody L w c s) with
      | .fault f => _ | .error => _ | .endOfData b' => _ | .ok b' => _) = _
    cases bodyRun (L.env w.hdr) (stdBody L w c s) with
    | fault f => rfl
    | error => rfl
    | ok b =>
      simp only
      have : bodyEndOk ((L.setOut u).env w.hdr) b = bodyEndOk (L.env w.hdr) b := rfl
      rw [this]
      split <;> rfl
    | endOfData b => rfl

theorem decodeWindow_setOut (L : Level) (u : Nat) (s : Bytes) :
    decodeWindow (L.setOut u) s = (decodeWindow L s).setOut u := by
  cases hw : L.win with
  | none =>
    rw [decodeWindow_none hw, decodeWindow_none (L := L.setOut u) hw]
    have h1 : readHeader (L.setOut u) s = readHeader L s := rfl
    have h2 : (L.setOut u).cache = L.cache := rfl
    rw [h1, h2]
    cases readHeader L s with
    | endOfData => rfl
    | error => rfl
    | ok hdr rest =>
      simp only
      cases L.cache.bind AddrCache.init with
      | none => rfl
      | some c => exact decodeWindowBody_setOut (L.opened hdr) u _ _ _
  | some w =>
    have hw' : (L.setOut u).win = some w := hw
    have h2 : (L.setOut u).cache = L.cache := rfl
    rw [decodeWindow, decodeWindow, hw, hw', h2]
    simp only
    split
    · rfl
    · cases L.cache with
      | none => rfl
      | some c => exact decodeWindowBody_setOut L u _ _ _

theorem LevelInv.setOut {L : Level} (h : LevelInv L) (p : Nat) : LevelInv (L.setOut p) :=
  ⟨h.closed, fun w hw => by
    obtain ⟨h1, h2, c, n, m, h3, h4⟩ := h.opened w hw
    exact ⟨h1, h2, c, n, m, h3, h4.inter, h4.win, h4.cache⟩, h.cache⟩

theorem LevelInv.setUnparsed {L : Level} (h : LevelInv L) (u : Bytes) : LevelInv (L.setUnparsed u) :=
  ⟨h.closed, fun w hw => by
    obtain ⟨h1, h2, c, n, m, h3, h4⟩ := h.opened w hw
    exact ⟨h1, h2, c, n, m, h3, h4.inter, h4.win, h4.cache⟩, h.cache⟩

/-- The level after `endChunk`. -/
def Level.ended (L : Level) (r : Bytes) : Level := (L.setUnparsed r).setOut L.decoded.length

theorem endChunk_eq (L : Level) (ns : List Level) (r out : Bytes) :
    endChunk L ns r out = .ok (L.ended r) ns (out ++ L.text) := rfl

theorem decodeWindow_ended {L L' : Level} {s r r' : Bytes} (h : decodeWindow L s = .endOfData L' r') :
    decodeWindow (L.ended r) s = .endOfData ((L'.setUnparsed r).setOut L.decoded.length) r' := by
  unfold Level.ended
  rw [decodeWindow_setOut, decodeWindow_setUnparsed, h]
  rfl

theorem windows_inv {L : Level} (hn : NodeInv L) (hc : L.cache ≠ none) (s : Bytes) :
    (∀ L' ns' out, decodeChunkWindows L s = .ok L' ns' out → ns' = [] ∧ NodeInv L' ∧ SameConfig L L' ∧
      L'.total + L.owed = L.total + L'.owed + out.length ∧
      (L.total ≤ L.maxFile → L'.total ≤ L'.maxFile) ∧
      (∀ p, L.planned = some p → L.total ≤ p → L'.total ≤ p) ∧
      (L.allowTarget = true → L'.decoded = L.decoded ++ out) ∧
      (∃ pre, s = pre ++ L'.unparsed) ∧
      (decodeWindow L' L'.unparsed = .endOfData L' L'.unparsed ∨ L'.Done) ∧
      (∀ u t, s = u ++ t → decodeWindow L u = .endOfData L u → (L.win = none → L.reachedPlanned = false) →
        L'.Done → L'.unparsed.length ≤ t.length) ∧
      (L'.table = L.table ∧ L'.tableString = L.tableString) ∧ L'.version = L.version ∧
      (∀ c, L.cache = some c → ∃ c', L'.cache = some c' ∧ c'.nearSize = c.nearSize)) ∧
    (∀ L' out, decodeChunkWindows L s = .error L' out → L'.started = false ∧ L'.maxFile = L.maxFile ∧
      L'.maxWin = L.maxWin ∧ L'.allowTarget = L.allowTarget ∧
      (L.total ≤ L.maxFile → L.total + out.length ≤ L.maxFile + L.owed) ∧
      (L.allowTarget = true → out = []) ∧ (L'.table = L.table ∧ L'.tableString = L.tableString)) ∧
    (∀ f, decodeChunkWindows L s = .fault f → f = .nearOverflow ∨
      (f = .cacheOob ∧ ∃ c, L.cache = some c ∧ c.nearSize = 254)) := by
  obtain ⟨i1, i2, i3⟩ := winRun_inv hn.inv (Nat.le_of_eq hn.out) s
  have heq : decodeChunkWindows L s = match winRun L s with
    | .fault f => .fault f
    | .error out => .error ({ L with unparsed := [], decoded := [] } : Level).reset out
    | .done L' rest out => endChunk L' [] rest out := rfl
  rw [heq]
  cases hw : winRun L s with
  | fault f =>
    refine ⟨by simp, by simp, ?_⟩
    intro f' h
    simp only [ChunkResult.fault.injEq] at h
    subst h
    exact i3 _ hw
  | error o =>
    refine ⟨by simp, ?_, by simp⟩
    intro L' out h
    simp only [ChunkResult.error.injEq] at h
    obtain ⟨rfl, rfl⟩ := h
    obtain ⟨⟨d, L2, k1, k2, k3, k4⟩, k5⟩ := i2 _ hw
    refine ⟨rfl, rfl, rfl, rfl, ?_, k5, rfl, rfl⟩
    intro hm
    have h1 := k2.file hm
    rw [(static_fields k2.stat).maxFile] at h1
    have h2 := congrArg List.length k3
    have htext : L.text = [] := by simp [Level.text, hn.out]
    rw [htext, List.length_append, List.length_append, List.length_nil] at h2
    omega
  | done L1 r1 o1 =>
    refine ⟨?_, by simp [endChunk], by simp [endChunk]⟩
    intro L' ns' out h
    simp only [endChunk_eq, ChunkResult.ok.injEq] at h
    obtain ⟨rfl, rfl, rfl⟩ := h
    obtain ⟨j1, ⟨pre, j2⟩, j3, ⟨d, j4, j5⟩, j6⟩ := i1 _ _ _ hw
    obtain ⟨q1, q2⟩ := winRun_quiet hn.inv hn.quiet hw
    have hst := static_fields j1.stat
    have htext : L.text = [] := by simp [Level.text, hn.out]
    rw [htext, List.nil_append] at j4
    have hcache : ∀ c, L.cache = some c → ∃ c', L1.cache = some c' ∧ c'.nearSize = c.nearSize := j1.near
    have hc1 : L1.cache ≠ none := by
      cases hx : L.cache with
      | none => exact absurd hx hc
      | some c =>
        obtain ⟨c', h1, _⟩ := hcache c hx
        rw [h1]; simp
    refine ⟨rfl, ⟨?_, (j1.inv.setUnparsed _).setOut _, ?_, rfl, ?_⟩, ?_, ?_, ?_, ?_, ?_, ?_, ?_, ?_, ?_, ?_, ?_⟩
    · exact hst.started.trans hn.started
    · exact decodeWindow_ended q1
    · intro hnone
      exact absurd hnone hc1
    · exact ⟨hst.started, hst.dict, hst.planned, hst.maxFile, hst.maxWin, hst.allowTarget⟩
    · have : (L1.ended r1).owed = L1.owed := rfl
      rw [this]
      have : (L1.ended r1).total = L1.total := rfl
      rw [this, j4, j5]
    · exact j1.file
    · exact j1.plan
    · intro ha
      obtain ⟨k1, k2, d', k3⟩ := j6 ha
      have : (L1.ended r1).decoded = L1.decoded := rfl
      rw [this, k3, k1, List.nil_append]
      congr 1
      rw [Level.text, k2, hn.out, k3, List.drop_left']
      rfl
    · exact ⟨pre, j2⟩
    · rcases q2 with q2 | q2
      · exact Or.inl (decodeWindow_ended q2)
      · exact Or.inr q2
    · rintro u t rfl hu hnd hdone
      have hdone' : L1.reachedPlanned = true ∧ L1.win = none := hdone
      have : (L1.ended r1).unparsed = r1 := rfl
      rw [this]
      rw [winRun_eq' hn.inv hn.quiet] at hw
      cases hd : decodeWindow L (u ++ t) with
      | fault f => simp [hd] at hw
      | error => simp [hd] at hw
      | endOfData L2 r2 =>
        simp only [hd, WindowsResult.done.injEq] at hw
        obtain ⟨rfl, rfl, rfl⟩ := hw
        rcases (decodeWindow_inv hn.inv (u ++ t)).2.1 _ _ hd with ⟨h1, h2, h3⟩ | ⟨_, _, ⟨c, d, w, sp, tot, _, h1, _⟩, _⟩
        · rw [h2] at hdone'
          rw [hnd h1] at hdone'
          simp at hdone'
        · rw [h1] at hdone'
          simp [Level.after] at hdone'
      | ok L2 r2 =>
        have hb := ((decodeWindow_extend hn.inv u t).2.2.2 _ _ hu).2.2 _ _ hd
        simp only [hd] at hw
        obtain ⟨k1, k2, _⟩ := decodeWindow_ok hn.inv hd
        split at hw
        · simp only [WindowsResult.done.injEq] at hw
          obtain ⟨rfl, rfl, rfl⟩ := hw
          exact hb
        · cases hw2 : winRun L2.next.1 r2 with
          | fault f => simp [hw2, WindowsResult.prepend] at hw
          | error f => simp [hw2, WindowsResult.prepend] at hw
          | done L3 r3 o3 =>
            simp only [hw2, WindowsResult.prepend, WindowsResult.done.injEq] at hw
            obtain ⟨rfl, rfl, rfl⟩ := hw
            have hout := (k1.trans (StepInv.next k1.inv k2)).out (Nat.le_of_eq hn.out)
            obtain ⟨_, ⟨pre', hp'⟩, _⟩ := (winRun_inv (k1.inv.next k2) hout r2).1 _ _ _ hw2
            rw [hp', List.length_append] at hb
            omega
    · exact ⟨hst.table, hst.tableString⟩
    · exact hst.version
    · exact hcache

/-! ### The whole chain -/

theorem NodeInv.closed_inv {L : Level} (h : NodeInv L) (hw : L.win = none) (c : AddrCache) (hc : CacheAny c)
    (v : UInt8) (t : CodeTable) (str : Bytes) :
    NodeInv { L with version := v, cache := some c, table := t, tableString := str } := by
  refine ⟨h.started, ⟨h.inv.closed, fun w hw' => ?_, fun c' hc' => ?_⟩, quiet_closed hw, h.out, fun hn => by simp at hn⟩
  · have : L.win = some w := hw'
    rw [hw] at this
    simp at this
  · simp only [Option.some.injEq] at hc'
    subst hc'
    exact hc

/-- The code table used after the bytes `b` of a custom code table have been decoded. -/
def Level.tableAfter (L : Level) (b : Bytes) (h : b.length = codeTableSize) : CodeTable :=
  if (CodeTable.ofBytes b h).validate ((L.cache.map AddrCache.lastMode).getD 0) then CodeTable.ofBytes b h else L.table

theorem append_suffix {a b c d : Bytes} (h : a ++ b = c ++ d) (hl : d.length ≤ b.length) : b.drop (b.length - d.length) = d := by
  have h1 := congrArg List.length h
  simp only [List.length_append] at h1
  have h2 : (a ++ b).drop c.length = d := by rw [h]; simp
  rw [List.drop_append] at h2
  have h3 : a.drop c.length = [] := List.drop_eq_nil_of_le (by omega)
  rw [h3, List.nil_append] at h2
  have : c.length - a.length = b.length - d.length := by omega
  rw [this] at h2
  exact h2

/-- What a nested decoder's success means for the level above it. -/
theorem table_step {L n n' : Level} {ns ns' : List Level} {s text : Bytes} (hL : NodeInv L)
    (hc : L.cache ≠ none) (hd : L.decoded = []) (hw : L.win = none) (ht : L.total = 0)
    (hstr : L.tableString = n.decoded) (hn : NestInv n ns) (hr : ChunkOk n ns s n' ns' text) :
    (∃ L', afterCodeTableChunk L n' ns' s text = .ok L' (n' :: ns') [] ∧
      L' = { L with tableString := L.tableString ++ text, unparsed := [], outPos := 0 } ∧
      NodeInv L' ∧ WaitInv L' n' ∧ NestInv n' ns') ∨
    (∃ h : n'.decoded.length = codeTableSize, ns' = [] ∧ n'.win = none ∧ n'.cache ≠ none ∧ (∃ pre, s = pre ++ n'.unparsed) ∧
      afterCodeTableChunk L n' ns' s text =
        decodeChunkWindows { L with tableString := [], table := L.tableAfter n'.decoded h } n'.unparsed) := by
  have hkept := hr.kept hn.target
  have htotal := hr.total
  rw [hn.total] at htotal
  have hle := hr.plan _ hn.planned hn.max
  have hlen : n'.decoded.length = n.decoded.length + text.length := by rw [hkept, List.length_append]
  have hstr' : L.tableString ++ text = n'.decoded := by rw [hstr, hkept]
  have hpl : n'.planned = some codeTableSize := hr.config.planned.trans hn.planned
  have hal : n'.allowTarget = true := hr.config.allowTarget.trans hn.target
  have hnode := hr.inv.node
  unfold afterCodeTableChunk
  dsimp only
  rw [hstr']
  by_cases hlt : n'.decoded.length < codeTableSize
  · rw [if_pos hlt]
    left
    have ho : L.outPos = 0 := by rw [hL.out, hd]; rfl
    refine ⟨{ L with tableString := n'.decoded, unparsed := [], outPos := 0 }, ?_, rfl, ?_, ?_, ?_⟩
    · simp [endChunk, Level.appendNewOutput, hd]
    · refine ⟨hL.started, ⟨hL.inv.closed, fun w hw' => ?_, hL.inv.cache⟩, ?_, by simp [hd], fun hn => absurd hn hc⟩
      · have : L.win = some w := hw'
        rw [hw] at this
        simp at this
      · exact quiet_closed hw
    · exact ⟨hc, rfl, hd, hw, ht, rfl⟩
    · have hnd : n'.win = none → n'.reachedPlanned = false := by
        intro hwn
        have : n'.owed = 0 := by simp [Level.owed, hwn]
        simp only [Level.reachedPlanned, hpl, decide_eq_false_iff_not]
        omega
      refine ⟨hal, hpl, by omega, hlt, hle, hr.hdr, ?_, hnd⟩
      intro h1 h2
      rcases hr.idle h1 h2 with h | h
      · exact h
      · have := hnd h.2
        rw [h.1] at this
        simp at this
  · rw [if_neg hlt]
    right
    have heq : n'.decoded.length = codeTableSize := by omega
    have howed : n'.owed = 0 := by omega
    have hwn : n'.win = none := by
      cases hx : n'.win with
      | none => rfl
      | some w =>
        have := (hnode.inv.opened w hx).2.1
        simp only [Level.owed, hx] at howed
        omega
    have hreach : n'.reachedPlanned = true := by
      simp only [Level.reachedPlanned, hpl, decide_eq_true_eq]
      omega
    have hcn : n'.cache ≠ none := by
      intro hx
      have := (hnode.fresh hx).2.1
      rw [this] at heq
      simp [codeTableSize] at heq
    have hns : ns' = [] := by
      cases ns' with
      | nil => rfl
      | cons m ms =>
        have := hr.inv.2.1.decoded
        rw [this] at heq
        simp [codeTableSize] at heq
    subst hns
    have hcomp : n'.isComplete (!([] : List Level).isEmpty) = true := by
      unfold Level.isComplete
      cases hx : n'.cache with
      | none => exact absurd hx hcn
      | some c => simp [hwn, hreach]
    rw [hcomp]
    have hb := hr.bound hn.waits ⟨hreach, hwn⟩
    obtain ⟨pre, hpre⟩ := hr.suffix
    have hnlt : ¬ n'.unparsed.length > s.length := by omega
    simp only [Bool.not_true, Bool.false_eq_true, if_false, dif_pos heq, if_neg hnlt]
    have hrest := append_suffix hpre hb
    rw [hrest]
    refine ⟨heq, trivial, hwn, hcn, ⟨s.take (s.length - n'.unparsed.length), ?_⟩, rfl⟩
    have := List.take_append_drop (s.length - n'.unparsed.length) s
    rw [hrest] at this
    exact this.symm

theorem table_inv {L n n' : Level} {ns ns' : List Level} {s text : Bytes} (hL : NodeInv L)
    (hc : L.cache ≠ none) (hd : L.decoded = []) (hw : L.win = none) (ht : L.total = 0)
    (hstr : L.tableString = n.decoded) (hn : NestInv n ns) (hr : ChunkOk n ns s n' ns' text) :
    (∃ L', afterCodeTableChunk L n' ns' s text = .ok L' (n' :: ns') [] ∧
      L' = { L with tableString := L.tableString ++ text, unparsed := [], outPos := 0 } ∧
      NodeInv L' ∧ WaitInv L' n' ∧ NestInv n' ns') ∨
    (∃ t rest pre, afterCodeTableChunk L n' ns' s text =
        decodeChunkWindows { L with tableString := [], table := t } rest ∧ s = pre ++ rest) := by
  rcases table_step hL hc hd hw ht hstr hn hr with h | ⟨_, _, _, _, ⟨pre, h1⟩, h2⟩
  · exact Or.inl h
  · exact Or.inr ⟨_, _, pre, h2, h1⟩

theorem forCodeTable_inv : NodeInv Level.forCodeTable ∧ NestInv Level.forCodeTable [] ∧
    ChainInv Level.forCodeTable [] := by
  have h : NodeInv Level.forCodeTable := by
    refine ⟨rfl, ⟨fun _ => rfl, fun w hw => ?_, fun c hc => ?_⟩, quiet_closed rfl, rfl, fun _ => ⟨rfl, rfl, rfl⟩⟩
    · simp [Level.forCodeTable, Level.start, Level.reset] at hw
    · simp [Level.forCodeTable, Level.start, Level.reset] at hc
  exact ⟨h, ⟨rfl, rfl, rfl, by decide, by decide, fun _ => rfl, fun hx => absurd rfl hx, fun _ => rfl⟩, h⟩

theorem NodeInv.closed_windows {L : Level} (h : NodeInv L) (hw : L.win = none) (hc : L.cache ≠ none) (t : CodeTable) (str : Bytes) :
    NodeInv { L with tableString := str, table := t } := by
  refine ⟨h.started, ⟨h.inv.closed, fun w hw' => ?_, h.inv.cache⟩, quiet_closed hw, h.out, fun hn => absurd hn hc⟩
  have : L.win = some w := hw'
  rw [hw] at this
  simp at this

theorem afterCodeTableChunk_inv {L n n' : Level} {ns ns' : List Level} {s text : Bytes} (hL : NodeInv L)
    (hc : L.cache ≠ none) (hd : L.decoded = []) (hw : L.win = none) (ht : L.total = 0)
    (hstr : L.tableString = n.decoded) (hn : NestInv n ns) (hr : ChunkOk n ns s n' ns' text) :
    (∀ L' ns'' out, afterCodeTableChunk L n' ns' s text = .ok L' ns'' out →
      ChainInv L' ns'' ∧ SameConfig L L' ∧ L'.total = L'.owed + out.length ∧
      (L.total ≤ L.maxFile → L'.total ≤ L'.maxFile) ∧
      (∀ p, L.planned = some p → L.total ≤ p → L'.total ≤ p) ∧
      (L.allowTarget = true → L'.decoded = out) ∧
      (∃ pre, s = pre ++ L'.unparsed) ∧ L'.cache ≠ none ∧ L'.version = L.version ∧
      (ns'' = [] → decodeWindow L' L'.unparsed = .endOfData L' L'.unparsed ∨ L'.Done)) ∧
    (∀ L' out, afterCodeTableChunk L n' ns' s text = .error L' out → L'.started = false ∧ L'.maxFile = L.maxFile ∧
      L'.maxWin = L.maxWin ∧ L'.allowTarget = L.allowTarget ∧
      (L.total ≤ L.maxFile → L.total + out.length ≤ L.maxFile + L.owed) ∧
      (L.allowTarget = true → out = [])) ∧
    (∀ f, afterCodeTableChunk L n' ns' s text = .fault f → f = .nearOverflow ∨ f = .cacheOob) := by
  have howed : L.owed = 0 := by simp [Level.owed, hw]
  rcases table_inv hL hc hd hw ht hstr hn hr with ⟨L', h1, h2, h3, h4, h5⟩ | ⟨t, rest, pre, h1, h2⟩
  · rw [h1]
    refine ⟨?_, by simp, by simp⟩
    intro L'' ns'' out h
    simp only [ChunkResult.ok.injEq] at h
    obtain ⟨rfl, rfl, rfl⟩ := h
    have e1 : L'.total = 0 := h4.total
    have e2 : L'.owed = 0 := by simp [Level.owed, h4.win]
    have e3 : L'.maxFile = L.maxFile := by rw [h2]
    have e4 : L'.cache = L.cache := by rw [h2]
    refine ⟨⟨h3, h4, h5, hr.inv⟩, ?_, by rw [e1, e2]; rfl, by omega, fun _ _ _ => by omega, ?_, ⟨s, ?_⟩, ?_, ?_, by simp⟩
    · rw [h2]; exact ⟨rfl, rfl, rfl, rfl, rfl, rfl⟩
    · intro _; exact h4.decoded
    · rw [h4.unparsed, List.append_nil]
    · exact h4.cache
    · rw [h2]
  · rw [h1]
    obtain ⟨w1, w2, w3⟩ := windows_inv (hL.closed_windows hw hc t []) hc rest
    refine ⟨?_, ?_, ?_⟩
    · intro L' ns'' out h
      obtain ⟨a1, a2, a3, a4, a5, a6, a7, ⟨pre', a8⟩, a9, _, _, a10, a11⟩ := w1 _ _ _ h
      subst a1
      have e1 : Level.owed { L with tableString := [], table := t } = 0 := howed
      have e2 : Level.total { L with tableString := [], table := t } = 0 := ht
      have e3 : Level.decoded { L with tableString := [], table := t } = [] := hd
      refine ⟨a2, ⟨a3.started, a3.dict, a3.planned, a3.maxFile, a3.maxWin, a3.allowTarget⟩, by omega, a5, a6, ?_,
        ⟨pre ++ pre', by rw [h2, a8, List.append_assoc]⟩, ?_, a10, fun _ => a9⟩
      · intro ha
        have := a7 ha
        rw [this, e3, List.nil_append]
      · cases hx : L.cache with
        | none => exact absurd hx hc
        | some c =>
          obtain ⟨c', h, _⟩ := a11 c hx
          rw [h]; simp
    · intro L' out h
      obtain ⟨b1, b2, b3, b4, b5, b6, _⟩ := w2 _ _ h
      exact ⟨b1, b2, b3, b4, b5, b6⟩
    · intro f h
      rcases w3 _ h with h | ⟨h, _⟩
      · exact Or.inl h
      · exact Or.inr h

theorem failed_eq {L L' : Level} {out : Bytes} (h : failed L = .error L' out) :
    L' = ({ L with unparsed := [], decoded := [] } : Level).reset ∧ out = [] := by
  simp only [failed, ChunkResult.error.injEq] at h
  exact ⟨h.1.symm, h.2.symm⟩

theorem ChainInv.none {L : Level} {ns : List Level} (h : ChainInv L ns) (hc : L.cache = none) : ns = [] := by
  cases ns with
  | nil => rfl
  | cons n ns => exact absurd hc h.2.1.cache

theorem withHeader_inv {L : Level} (h : NodeInv L) (hc : L.cache = none) (hdr : FileHeader) :
    NodeInv (L.withHeader hdr) ∧ (L.withHeader hdr).cache ≠ none ∧ (L.withHeader hdr).decoded = [] ∧
    (L.withHeader hdr).win = none ∧ (L.withHeader hdr).total = 0 ∧ (L.withHeader hdr).version = hdr.version ∧
    ((L.withHeader hdr).table = L.table ∧
      (hdr.caches = none → (L.withHeader hdr).tableString = L.tableString)) ∧ (L.withHeader hdr).unparsed = L.unparsed ∧
    SameConfig L (L.withHeader hdr) := by
  obtain ⟨f1, f2, f3⟩ := h.fresh hc
  obtain ⟨v, cs⟩ := hdr
  unfold Level.withHeader
  cases cs with
  | none =>
    exact ⟨h.closed_inv f1 _ ⟨4, 3, Or.inl rfl⟩ v L.table L.tableString, by simp, f2, f1, f3, rfl, ⟨rfl, fun _ => rfl⟩, rfl,
      ⟨rfl, rfl, rfl, rfl, rfl, rfl⟩⟩
  | some p =>
    exact ⟨h.closed_inv f1 _ ⟨p.1, p.2, Or.inl rfl⟩ v L.table [], by simp, f2, f1, f3, rfl, ⟨rfl, fun h => by simp at h⟩, rfl,
      ⟨rfl, rfl, rfl, rfl, rfl, rfl⟩⟩

theorem chunk_inv {L : Level} {ns : List Level} (h : ChainInv L ns) (data : Bytes) :
    (∀ L' ns' out, chunkRun L ns data = .ok L' ns' out → ChunkOk L ns data L' ns' out) ∧
    (∀ L' out, chunkRun L ns data = .error L' out → ChunkErr L ns data L' out) ∧
    (∀ f, chunkRun L ns data = .fault f → ChunkFault L ns data f) := by
  induction hn : chunkDepth L ns data using Nat.strongRecOn generalizing L ns data with
  | _ k ih =>
    subst hn
    have hnode := h.node
    have hst := hnode.started
    rw [chunkRun_eq, chunkStep, if_neg (by rw [hst]; simp)]
    cases hc : L.cache with
    | some c =>
      have hcn : L.cache ≠ none := by rw [hc]; simp
      simp only
      cases ns with
      | nil =>
        rw [tableStep]
        obtain ⟨w1, w2, w3⟩ := windows_inv hnode hcn (L.unparsed ++ data)
        refine ⟨?_, ?_, ?_⟩
        · intro L' ns' out hr
          obtain ⟨a1, a2, a3, a4, a5, a6, a7, a8, a9, a10, a11, a12, a13⟩ := w1 _ _ _ hr
          subst a1
          have hc' : L'.cache ≠ none := by
            obtain ⟨c', h, _⟩ := a13 c hc
            rw [h]; simp
          exact ⟨a2, a3, a4, a5, a6, a7, a8, fun hx => absurd hx hc', fun _ _ => a9,
            fun hwait hdone => a10 _ _ rfl (hwait.idle hcn rfl) hwait.notDone hdone,
            fun _ c hcc => ⟨rfl, a11.1, a11.2, a12, a13 c hcc⟩, fun _ => ⟨hc', a12⟩, fun hx => absurd hx hcn⟩
        · intro L' out hr
          obtain ⟨b1, b2, b3, b4, b5, b6, b7⟩ := w2 _ _ hr
          exact ⟨b1, b2, b3, b4, b5, b6, fun _ _ => b7, fun _ _ => b7⟩
        · intro f hr
          rcases w3 _ hr with h | ⟨h, c0, h1, h2⟩
          · exact ⟨Or.inl h, fun _ _ _ _ => h, fun _ _ => h⟩
          · refine ⟨Or.inr h, ?_, fun hx => absurd hx hcn⟩
            intro _ c' hc' hne
            rw [h1] at hc'
            simp only [Option.some.injEq] at hc'
            subst hc'
            exact absurd h2 hne
      | cons n ns =>
        obtain ⟨_, hwait, hnest, hchain⟩ := h
        have hlt : chunkDepth n ns (L.unparsed ++ data) < chunkDepth L (n :: ns) data := by
          simp only [chunkDepth, List.map_cons, List.sum_cons, List.length_append]
          omega
        obtain ⟨n1, n2, n3⟩ := ih _ hlt hchain (L.unparsed ++ data) rfl
        rw [tableStep]
        cases hr : chunkRun n ns (L.unparsed ++ data) with
        | fault f =>
          refine ⟨by simp, by simp, ?_⟩
          intro f' hf
          simp only [ChunkResult.fault.injEq] at hf
          subst hf
          exact ⟨(n3 _ hr).any, by simp, fun hx => absurd hx hcn⟩
        | error L2 o2 =>
          refine ⟨by simp [failed], ?_, by simp [failed]⟩
          intro L' out he
          obtain ⟨rfl, rfl⟩ := failed_eq he
          exact ⟨rfl, rfl, rfl, rfl, fun hx => by simp only [List.length_nil]; omega, fun _ => rfl, by simp, fun hx => absurd hx hcn⟩
        | ok n' ns' text =>
          simp only
          obtain ⟨w1, w2, w3⟩ := afterCodeTableChunk_inv hnode hcn hwait.decoded hwait.win hwait.total hwait.str
            hnest (n1 _ _ _ hr)
          have hu : L.unparsed = [] := hwait.unparsed
          have hod : L.owed = 0 := by simp [Level.owed, hwait.win]
          refine ⟨?_, ?_, ?_⟩
          · intro L' ns'' out hr'
            obtain ⟨a1, a2, a3, a4, a5, a6, a7, a8, a9, a10⟩ := w1 _ _ _ hr'
            refine ⟨a1, a2, ?_, a4, a5, ?_, a7, fun hx => absurd hx a8, fun _ => a10, ?_, by simp,
              fun _ => ⟨a8, a9⟩, fun hx => absurd hx hcn⟩
            · rw [hwait.total]; omega
            · intro ha; rw [hwait.decoded, List.nil_append]; exact a6 ha
            · intro _ _
              obtain ⟨pre, h2⟩ := a7
              rw [hu, List.nil_append] at h2
              rw [h2, List.length_append]
              omega
          · intro L' out hr'
            obtain ⟨b1, b2, b3, b4, b5, b6⟩ := w2 _ _ hr'
            exact ⟨b1, b2, b3, b4, b5, b6, by simp, fun hx => absurd hx hcn⟩
          · intro f hr'
            exact ⟨w3 _ hr', by simp, fun hx => absurd hx hcn⟩
    | none =>
      simp only
      have hns : ns = [] := h.none hc
      subst hns
      obtain ⟨f1, f2, f3⟩ := hnode.fresh hc
      have hod : L.owed = 0 := by simp [Level.owed, f1]
      cases hh : readFileHeader (L.unparsed ++ data) with
      | error =>
        refine ⟨by simp [failed], ?_, by simp [failed]⟩
        intro L' out he
        obtain ⟨rfl, rfl⟩ := failed_eq he
        exact ⟨rfl, rfl, rfl, rfl, fun hx => by simp only [List.length_nil]; omega, fun _ => rfl, fun _ hx => absurd hc hx, fun _ _ => ⟨rfl, rfl⟩⟩
      | endOfData =>
        refine ⟨?_, by simp [endChunk], by simp [endChunk]⟩
        intro L' ns' out hr
        have ho : L.outPos = 0 := by rw [hnode.out, f2]; rfl
        have e : endChunk L [] (L.unparsed ++ data) [] = .ok (L.setUnparsed (L.unparsed ++ data)) [] [] := by
          have : L.text = [] := by simp [Level.text, f2]
          rw [endChunk_eq, this]
          have : L.ended (L.unparsed ++ data) = L.setUnparsed (L.unparsed ++ data) := by
            simp [Level.ended, Level.setUnparsed, Level.setOut, f2, ho]
          rw [this]
          rfl
        rw [e] at hr
        simp only [ChunkResult.ok.injEq] at hr
        obtain ⟨rfl, rfl, rfl⟩ := hr
        have hq : (L.setUnparsed (L.unparsed ++ data)).Quiet := quiet_closed f1
        refine ⟨⟨hst, hnode.inv.setUnparsed _, hq, hnode.out, hnode.fresh⟩, ⟨rfl, rfl, rfl, rfl, rfl, rfl⟩, rfl, id,
          fun _ _ => id, fun _ => by simp [Level.setUnparsed], ⟨[], rfl⟩, fun _ => hh, fun hx => absurd hc hx, ?_,
          fun _ c hx => by rw [hc] at hx; simp at hx, fun hx => absurd hc hx, fun _ => Or.inl ⟨hh, rfl, rfl⟩⟩
        intro hw hdone
        have h1 := hw.notDone f1
        have h2 : L.reachedPlanned = true := hdone.1
        rw [h1] at h2
        simp at h2
      | ok hdr rest =>
        simp only
        obtain ⟨i1, i2, i3, i4, i5, i6, i7, i8, i9⟩ := withHeader_inv hnode hc hdr
        obtain ⟨pre, p1, p2⟩ := readFileHeader_ok_pre hh
        have hod' : (L.withHeader hdr).owed = 0 := by simp [Level.owed, i4]
        have hbound : Waits L [] → rest.length ≤ data.length := fun hw =>
          Local.readFileHeader.eod_len (hw.hdr hc) hh
        cases hcs : hdr.caches with
        | none =>
          have e1 : nestedFor hdr [] = [] := by simp [nestedFor, hcs]
          rw [e1, tableStep]
          obtain ⟨w1, w2, w3⟩ := windows_inv i1 i2 rest
          have hnear : (L.withHeader hdr).cache = some AddrCache.newDefault := by simp [Level.withHeader, hcs]
          refine ⟨?_, ?_, ?_⟩
          · intro L' ns' out hr
            obtain ⟨a1, a2, a3, a4, a5, a6, a7, a8, a9, a10, a11, a12, a13⟩ := w1 _ _ _ hr
            subst a1
            obtain ⟨c', k1, k2⟩ := a13 _ hnear
            have hc' : L'.cache ≠ none := by rw [k1]; simp
            refine ⟨a2, i9.trans a3, ?_, ?_, ?_, ?_, ?_, fun hx => absurd hx hc', fun _ _ => a9, ?_,
              fun _ c hx => by rw [hc] at hx; simp at hx, fun hx => absurd hc hx, fun _ => Or.inr ⟨hdr, rest, hh,
                a12.trans i6, hc', fun _ => ⟨rfl, a11.1.trans i7.1, a11.2.trans (i7.2 hcs), c', k1, k2⟩⟩⟩
            · omega
            · intro _; exact a5 (by rw [i5]; omega)
            · intro p hp _; exact a6 p (i9.planned.trans hp) (by rw [i5]; omega)
            · intro ha; rw [a7 (i9.allowTarget.trans ha), i3, f2]
            · obtain ⟨pre', h'⟩ := a8
              exact ⟨pre ++ pre', by rw [p1, h', List.append_assoc]⟩
            · intro hw _
              obtain ⟨pre', h'⟩ := a8
              have h1 := hbound hw
              rw [h', List.length_append] at h1
              omega
          · intro L' out hr
            obtain ⟨b1, b2, b3, b4, b5, b6, b7⟩ := w2 _ _ hr
            have em := i9.maxFile
            have ea := i9.allowTarget
            refine ⟨b1, b2.trans i9.maxFile, b3.trans i9.maxWin, b4.trans i9.allowTarget, ?_, ?_,
              fun _ hx => absurd hc hx, fun _ _ => ⟨b7.1.trans i7.1, b7.2.trans (i7.2 hcs)⟩⟩
            · intro hm; have := b5 (by rw [i5]; omega); omega
            · intro ha; exact b6 (ea.trans ha)
          · intro f hr
            have : f = .nearOverflow := by
              rcases w3 _ hr with h | ⟨h, c0, h1, h2⟩
              · exact h
              · rw [hnear] at h1
                simp only [Option.some.injEq] at h1
                subst h1
                simp [AddrCache.newDefault, AddrCache.new] at h2
            exact ⟨Or.inl this, fun _ c hx => by rw [hc] at hx; simp at hx, fun _ _ => this⟩
        | some p =>
          have e1 : nestedFor hdr [] = [Level.forCodeTable] := by simp [nestedFor, hcs]
          rw [e1, tableStep]
          obtain ⟨_, hnest, hchain⟩ := forCodeTable_inv
          have hlt : chunkDepth Level.forCodeTable [] rest < chunkDepth L [] data := by
            have hl := congrArg List.length p1
            simp only [List.length_append] at hl
            have : Level.forCodeTable.unparsed = [] := rfl
            simp only [chunkDepth, List.map_cons, List.sum_cons, List.map_nil, List.sum_nil, this,
              List.length_nil]
            omega
          obtain ⟨n1, n2, n3⟩ := ih _ hlt hchain rest rfl
          have hstr : (L.withHeader hdr).tableString = Level.forCodeTable.decoded := by
            simp only [Level.withHeader, hcs]; rfl
          have hplain : ∀ {P : Prop}, (∀ hdr' rest', Parsed.ok hdr rest = Parsed.ok hdr' rest' → hdr'.caches = none) → P := by
            intro P hx
            have := hx _ _ rfl
            rw [hcs] at this
            simp at this
          cases hr : chunkRun Level.forCodeTable [] rest with
          | fault f =>
            refine ⟨by simp, by simp, ?_⟩
            intro f' hf
            simp only [ChunkResult.fault.injEq] at hf
            subst hf
            exact ⟨(n3 _ hr).any, fun _ c hx => by rw [hc] at hx; simp at hx, fun _ hx => by rw [hh] at hx; exact hplain hx⟩
          | error L2 o2 =>
            refine ⟨by simp [failed], ?_, by simp [failed]⟩
            intro L' out he
            obtain ⟨rfl, rfl⟩ := failed_eq he
            exact ⟨rfl, i9.maxFile, i9.maxWin, i9.allowTarget, fun hx => by simp only [List.length_nil]; omega, fun _ => rfl, fun _ hx => absurd hc hx,
              fun _ hx => by rw [hh] at hx; exact hplain hx⟩
          | ok n' ns' text =>
            simp only
            obtain ⟨w1, w2, w3⟩ := afterCodeTableChunk_inv i1 i2 i3 i4 i5 hstr hnest (n1 _ _ _ hr)
            refine ⟨?_, ?_, ?_⟩
            · intro L' ns'' out hr'
              obtain ⟨a1, a2, a3, a4, a5, a6, a7, a8, a9, a10⟩ := w1 _ _ _ hr'
              refine ⟨a1, i9.trans a2, ?_, ?_, ?_, ?_, ?_, fun hx => absurd hx a8, fun _ => a10, ?_,
                fun _ c hx => by rw [hc] at hx; simp at hx, fun hx => absurd hc hx, fun _ => Or.inr ⟨hdr, rest, hh,
                a9.trans i6, a8, fun hx => by rw [hcs] at hx; simp at hx⟩⟩
              · omega
              · intro _; exact a4 (by rw [i5]; omega)
              · intro p hp _; exact a5 p (i9.planned.trans hp) (by rw [i5]; omega)
              · intro ha; rw [a6 (i9.allowTarget.trans ha), f2, List.nil_append]
              · obtain ⟨pre', h'⟩ := a7
                exact ⟨pre ++ pre', by rw [p1, h', List.append_assoc]⟩
              · intro hw _
                obtain ⟨pre', h'⟩ := a7
                have h1 := hbound hw
                rw [h', List.length_append] at h1
                omega
            · intro L' out hr'
              obtain ⟨b1, b2, b3, b4, b5, b6⟩ := w2 _ _ hr'
              have em := i9.maxFile
              have ea := i9.allowTarget
              refine ⟨b1, b2.trans i9.maxFile, b3.trans i9.maxWin, b4.trans i9.allowTarget, ?_, ?_,
                fun _ hx => absurd hc hx, fun _ hx => by rw [hh] at hx; exact hplain hx⟩
              · intro hm; have := b5 (by rw [i5]; omega); omega
              · intro ha; exact b6 (ea.trans ha)
            · intro f hr'
              exact ⟨w3 _ hr', fun _ c hx => by rw [hc] at hx; simp at hx, fun _ hx => by rw [hh] at hx; exact hplain hx⟩

end Vcd
