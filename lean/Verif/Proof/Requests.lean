import Verif.Proof.WordSize
import Verif.Proof.Memory
import Verif.Proof.OutputString
import Verif.Model.Requests

/-!
# The memory that the decoder asks for
-/

namespace Vcd
open Spec Word

/-- What the requests of a level keep to. -/
structure Level.Allows (L : Level) (n : Nat) : Prop where
  file : n ≤ L.maxFile
  plan : ∀ p, L.planned = some p → n ≤ p
  win : L.allowTarget = false → n ≤ L.maxWin

theorem Level.Allows.congr {L L' : Level} {n : Nat} (h : L'.Allows n) (h1 : L'.maxFile = L.maxFile) (h2 : L'.planned = L.planned)
    (h3 : L'.allowTarget = L.allowTarget) (h4 : L'.maxWin = L.maxWin) : L.Allows n :=
  ⟨h1 ▸ h.file, fun p hp => h.plan p (h2.trans hp), fun ha => h4 ▸ h.win (h3.trans ha)⟩

theorem wanted_allowed {W : Nat} {L : Level} (hL : LevelInv L) (hf : Word.Fits W L) (h0 : L.allowTarget = false → L.startPos = 0)
    {s : Bytes} {n : Nat} (h : n ∈ L.wanted s) : L.Allows n := by
  unfold Level.wanted at h
  cases hw : L.win with
  | some w => simp [hw] at h
  | none =>
    simp only [hw] at h
    cases hr : readHeader L s with
    | endOfData => simp [hr] at h
    | error => simp [hr] at h
    | ok hdr r =>
      simp only [hr, List.mem_singleton] at h
      obtain ⟨x1, x2, x3⟩ := wouldExceed_false (readHeader_ok hr).2.2.2.2.2.1
      have hs := hL.closed hw
      have ht := hf.text
      have hx := x3 hf.room
      refine ⟨by omega, fun p hp => ?_, fun ha => ?_⟩
      · have := x2 p hp (hf.plan p hp)
        omega
      · rw [h, h0 ha]; omega

theorem loop_allowed {W : Nat} (fuel : Nat) {L : Level} (hL : LevelInv L) (hf : Word.Fits W L)
    (h0 : L.allowTarget = false → L.startPos = 0) {s : Bytes} {n : Nat} (h : n ∈ windowLoopWanted fuel L s) : L.Allows n := by
  induction fuel generalizing L s with
  | zero => simp [windowLoopWanted] at h
  | succ fuel ih =>
    rw [windowLoopWanted] at h
    by_cases hs : s = []
    · rw [if_pos hs] at h; simp at h
    rw [if_neg hs, List.mem_append] at h
    rcases h with h | h
    · exact wanted_allowed hL hf h0 h
    cases hd : decodeWindow L s with
    | fault f => simp [hd] at h
    | error => simp [hd] at h
    | endOfData L' r => simp [hd] at h
    | ok L' r =>
      simp only [hd] at h
      obtain ⟨i1, i2, _⟩ := decodeWindow_ok hL hd
      have hst := static_fields i1.stat
      have hn := (fits_stable W).ok hL hf hd
      have hLn := i1.inv.next i2
      unfold Level.next at hn hLn
      by_cases hr : L'.reachedPlanned = true
      · rw [if_pos hr] at h; simp at h
      rw [if_neg hr] at h
      by_cases ha : L'.allowTarget = true
      · rw [if_pos ha] at hn hLn
        rw [if_neg (by rw [ha]; decide)] at h
        refine (ih hLn hn (fun hx => ?_) h).congr hst.maxFile hst.planned hst.allowTarget hst.maxWin
        rw [ha] at hx; simp at hx
      · rw [if_neg ha] at hn hLn
        rw [if_pos (by simpa using ha)] at h
        exact (ih hLn hn (fun _ => rfl) h).congr hst.maxFile hst.planned hst.allowTarget hst.maxWin

/-- What the requests of a decoder keep to. -/
def Keeps (L : Level) (rs : List Request) : Prop :=
  ∀ r ∈ rs, (r.depth = 0 → L.Allows r.bytes) ∧ (r.depth ≠ 0 → r.bytes ≤ codeTableSize)

theorem Keeps.congr {L L' : Level} {rs : List Request} (h : Keeps L' rs) (h1 : L'.maxFile = L.maxFile) (h2 : L'.planned = L.planned)
    (h3 : L'.allowTarget = L.allowTarget) (h4 : L'.maxWin = L.maxWin) : Keeps L rs :=
  fun r hr => ⟨fun h0 => ((h r hr).1 h0).congr h1 h2 h3 h4, (h r hr).2⟩

theorem Keeps.nil (L : Level) : Keeps L [] := by simp [Keeps]

theorem Keeps.append {L : Level} {a b : List Request} (ha : Keeps L a) (hb : Keeps L b) : Keeps L (a ++ b) := by
  intro r hr
  rcases List.mem_append.1 hr with h | h
  · exact ha r h
  · exact hb r h

theorem windows_keep {W : Nat} {L : Level} (hL : LevelInv L) (hf : Word.Fits W L)
    (h0 : L.allowTarget = false → L.startPos = 0) (s : Bytes) : Keeps L (chunkWindowsWanted L s) := by
  intro r hr
  simp only [chunkWindowsWanted, List.mem_map] at hr
  obtain ⟨n, h1, rfl⟩ := hr
  exact ⟨fun _ => loop_allowed _ hL hf h0 h1, fun h => absurd rfl h⟩

theorem afterTable_keep {W : Nat} {L : Level} (hL : NodeInv L) (hc : L.cache ≠ none) (hf : Word.Fits W L) (hd : L.decoded = [])
    (hw : L.win = none) (n : Level) (ns : List Level) (s text : Bytes) : Keeps L (afterCodeTableWanted L n ns s text) := by
  unfold afterCodeTableWanted
  dsimp only
  split
  · exact .nil _
  split
  · exact .nil _
  split
  · split
    · exact .nil _
    · refine (windows_keep (W := W) (hL.closed_windows hw hc _ []).inv (hf.congr rfl rfl rfl rfl rfl) (fun _ => ?_) _).congr rfl rfl rfl rfl
      change L.startPos = 0
      rw [hL.inv.closed hw, hd]; rfl
  · exact .nil _

theorem nested_keep {L n : Level} {rs : List Request} (hp : n.planned = some codeTableSize) (h : Keeps n rs) :
    Keeps L (rs.map fun r => ⟨r.depth + 1, r.bytes⟩) := by
  intro r hr
  simp only [List.mem_map] at hr
  obtain ⟨q, h1, rfl⟩ := hr
  refine ⟨fun hx => by simp at hx, fun _ => ?_⟩
  by_cases h0 : q.depth = 0
  · exact ((h q h1).1 h0).plan _ hp
  · exact (h q h1).2 h0

theorem chunk_keep {W : Nat} (hW : 4294967296 ≤ W) (fuel : Nat) {L : Level} {ns : List Level} (h : ChainInv L ns)
    (hf : AllFit W L ns) (h0 : L.allowTarget = false → L.startPos = 0) (data : Bytes) :
    Keeps L (chunkRequestsFuel fuel L ns data) := by
  induction fuel generalizing L ns data with
  | zero => exact .nil _
  | succ fuel ih =>
    have hnode := h.node
    have hL := hf L (List.mem_cons_self ..)
    have key : ∀ {L : Level} {n : Level} {ns : List Level}, NodeInv L → L.cache ≠ none → Word.Fits W L → L.decoded = [] → L.win = none →
        n.planned = some codeTableSize → n.allowTarget = true → ChainInv n ns → AllFit W n ns → ∀ s,
        Keeps L (codeTableWanted (chunkRequestsFuel fuel) L (n :: ns) s) := by
      intro L n ns k1 k2 k3 k4 k5 k6 k7 k8 k9 s
      unfold codeTableWanted
      refine (nested_keep k6 (ih k8 k9 (fun hx => by rw [k7] at hx; simp at hx) s)).append ?_
      split
      · exact afterTable_keep k1 k2 k3 k4 k5 _ _ _ _
      · exact .nil _
    rw [chunkRequestsFuel, if_neg (by rw [hnode.started]; simp)]
    dsimp only
    cases hc : L.cache with
    | some c =>
      have hcn : L.cache ≠ none := by rw [hc]; simp
      dsimp only
      cases ns with
      | nil => exact windows_keep hnode.inv hL h0 _
      | cons n ns =>
        obtain ⟨_, hw, hn, hch⟩ := h
        exact key hnode hcn hL hw.decoded hw.win hn.planned hn.target hch (fun x hx => hf x (List.mem_cons_of_mem _ hx)) _
    | none =>
      dsimp only
      have hns := h.none hc
      subst hns
      cases hr : readFileHeader (L.unparsed ++ data) with
      | error => exact .nil _
      | endOfData => exact .nil _
      | ok hdr rest =>
        dsimp only
        obtain ⟨i1, i2, i3, i4, i5, _, _, _, i6⟩ := withHeader_inv hnode hc hdr
        have hfit := withHeader_fits hL hdr
        obtain ⟨v, c⟩ := hdr
        cases c with
        | none =>
          refine (windows_keep i1.inv hfit (fun _ => ?_) rest).congr i6.maxFile i6.planned i6.allowTarget i6.maxWin
          rw [i1.inv.closed i4, i3]; rfl
        | some p =>
          obtain ⟨near, same⟩ := p
          obtain ⟨_, f2, f3⟩ := forCodeTable_inv
          exact (key i1 i2 hfit i3 i4 f2.planned f2.target f3 (.one (forCodeTable_fits hW)) rest).congr
            i6.maxFile i6.planned i6.allowTarget i6.maxWin

theorem requests_stopped {d : Decoder} (hd : d.top.started = false) (cs : List Bytes) : d.requests cs = [] := by
  induction cs generalizing d with
  | nil => rfl
  | cons c cs ih =>
    rw [Decoder.requests, chunk_stopped hd]
    have hb : ∃ k, d.depthBound c = k + 1 := ⟨_, rfl⟩
    obtain ⟨k, hk⟩ := hb
    rw [hk, chunkRequestsFuel, if_pos (by rw [hd]; rfl)]
    exact ih rfl

/-- The requests of a sequence of chunks. -/
theorem requests_keep {W : Nat} (hW : 4294967296 ≤ W) {d : Decoder} (hi : DecInv d)
    (hf : d.top.started = true → AllFit W d.top d.nested ∧ Kept d.top.maxWin d.top) (cs : List Bytes) :
    Keeps d.top (d.requests cs) := by
  induction cs generalizing d with
  | nil => exact .nil _
  | cons c cs ih =>
    rw [Decoder.requests]
    by_cases hs : d.top.started = true
    · obtain ⟨hch, hpl⟩ := hi hs
      obtain ⟨a1, a2⟩ := hf hs
      refine (chunk_keep hW _ hch a1 a2.flushed c).append ?_
      cases hcall : d.call (.chunk c) with
      | error f => exact .nil _
      | ok q =>
        obtain ⟨r, d'⟩ := q
        dsimp only
        have hi' := hi.call hcall
        obtain ⟨c1, c2, _⟩ := chunk_inv hch c
        simp only [Decoder.call, decodeChunk_eq] at hcall
        cases hr : chunkRun d.top d.nested c with
        | fault f => simp [hr] at hcall
        | error L o =>
          simp only [hr, Except.ok.injEq, Prod.mk.injEq] at hcall
          obtain ⟨rfl, rfl⟩ := hcall
          have hst : L.started = false := (c2 _ _ hr).stopped
          rw [requests_stopped hst]
          exact .nil _
        | ok L ns o =>
          simp only [hr, Except.ok.injEq, Prod.mk.injEq] at hcall
          obtain ⟨rfl, rfl⟩ := hcall
          have hok := c1 _ _ _ hr
          have hcf := hok.config
          refine (ih hi' (fun _ => ⟨?_, ?_⟩)).congr hcf.maxFile hcf.planned hcf.allowTarget hcf.maxWin
          · exact (Word.chunk_eq hW hch a1 (Nat.le_refl _)).2 _ _ _ hr
          · have := (chunk_kept hch hpl a2 (Nat.le_refl _) hr).1
            rw [← hcf.maxWin] at this
            exact this
    · have hs' : d.top.started = false := by simpa using hs
      have h := requests_stopped hs' (c :: cs)
      rw [Decoder.requests] at h
      rw [h]
      exact .nil _

/-! ## Output strings -/

/-- If `n` bytes have been output, then a request for more leads to at most `m` in all. -/
def ReserveOk (m : Nat) : Nat → List OutEvent → Prop
  | _, [] => True
  | n, .window :: es => ReserveOk m n es
  | n, .op (.append b) :: es => ReserveOk m (n + b.length) es
  | n, .op (.reserve k) :: es => n + k ≤ m ∧ ReserveOk m n es

theorem ReserveOk.append {m n : Nat} {a b : List OutEvent} (ha : ReserveOk m n a) (hb : ReserveOk m (n + (textOf a).length) b) :
    ReserveOk m n (a ++ b) := by
  induction a generalizing n with
  | nil => simpa [textOf, opsOf, appendedBy] using hb
  | cons e a ih =>
    cases e with
    | window => exact ih ha hb
    | op o =>
      cases o with
      | append c =>
        refine ih (n := n + c.length) ha ?_
        have : (textOf (.op (.append c) :: a)).length = c.length + (textOf a).length := by
          simp [textOf, opsOf, appendedBy]
        rw [this, ← Nat.add_assoc] at hb
        exact hb
      | reserve k => exact ⟨ha.1, ih ha.2 hb⟩

theorem ReserveOk.bound {m n : Nat} {pre post : List OutEvent} {k : Nat} (h : ReserveOk m n (pre ++ .op (.reserve k) :: post)) :
    n + (textOf pre).length + k ≤ m := by
  induction pre generalizing n with
  | nil => exact h.1
  | cons e a ih =>
    cases e with
    | window => exact ih (n := n) h
    | op o =>
      cases o with
      | append c =>
        have := ih (n := n + c.length) h
        have e : (textOf (.op (.append c) :: a)).length = c.length + (textOf a).length := by
          simp [textOf, opsOf, appendedBy]
        omega
      | reserve k => exact ih (n := n) h.2

/-- `n` bytes have been output. -/
structure Outputs (n : Nat) (L : Level) : Prop where
  count : n + L.text.length + L.owed = L.total
  room : L.total ≤ L.maxFile
  out : L.outPos ≤ L.decoded.length

/-- A window whose size would exceed the limits is refused as soon as that is known. -/
theorem lengthRead_exceeds {L : Level} {s : Bytes} {n : Nat} (h : L.lengthRead s = some n) (hx : L.wouldExceed n = true) :
    readHeader L s = .error := by
  obtain ⟨r, hr⟩ := lengthRead_some h
  unfold lengthParser at hr
  obtain ⟨isp, s1, g1, hr⟩ := Parsed.bind_eq_ok.1 hr
  obtain ⟨dl, s2, g2, g3⟩ := Parsed.bind_eq_ok.1 hr
  rw [readHeader_eq]
  unfold Vcd.headerFields
  rw [g1]
  simp only [Parsed.bind, g2]
  unfold Vcd.deltaFields
  rw [g3]
  simp [Parsed.bind, hx]

theorem loop_outputs (m fuel : Nat) (seen : Bool) {L : Level} (hL : LevelInv L) (hpl : L.planned = none) {n : Nat} (h : Outputs n L)
    (s : Bytes) : ReserveOk m n (windowLoopEvents fuel seen L s).1 ∧
    ∀ L' r, (windowLoopEvents fuel seen L s).2 = some (L', r) → LevelInv L' ∧ L'.maxFile = L.maxFile ∧
      n + (textOf (windowLoopEvents fuel seen L s).1).length + L'.text.length + L'.rem r ≤ L.maxFile := by
  induction fuel generalizing seen L s n with
  | zero => exact ⟨trivial, by simp [windowLoopEvents]⟩
  | succ fuel ih =>
    obtain ⟨hcount, hroom, hout⟩ := h
    rw [windowLoopEvents]
    by_cases hs : s = []
    · rw [if_pos hs]
      refine ⟨trivial, ?_⟩
      intro L' r e
      simp only [Option.some.injEq, Prod.mk.injEq] at e
      obtain ⟨rfl, rfl⟩ := e
      refine ⟨hL, rfl, ?_⟩
      have : L.rem s ≤ L.owed := by
        unfold Level.rem
        split
        · exact Nat.le_refl _
        · rw [hs, lengthRead_nil]; exact Nat.zero_le _
      change n + 0 + _ + _ ≤ _
      omega
    rw [if_neg hs]
    dsimp only
    have hbt : ∀ n, ReserveOk m n (if L.win.isNone && !seen && (L.lengthRead s).isSome then [OutEvent.window] else []) := by
      intro n; split <;> trivial
    have hb : textOf (if L.win.isNone && !seen && (L.lengthRead s).isSome then [OutEvent.window] else []) = [] := by
      split <;> rfl
    generalize (if L.win.isNone && !seen && (L.lengthRead s).isSome then [OutEvent.window] else []) = begun at hb hbt ⊢
    cases hd : decodeWindow L s with
    | fault f => exact ⟨hbt n, by simp⟩
    | error => exact ⟨hbt n, by simp⟩
    | endOfData L' r =>
      refine ⟨hbt n, ?_⟩
      intro L2 r2 e
      simp only [Option.some.injEq, Prod.mk.injEq] at e
      obtain ⟨rfl, rfl⟩ := e
      obtain ⟨st, _⟩ := decodeWindow_eod hL hd
      refine ⟨st.inv, (static_fields st.stat).maxFile, ?_⟩
      dsimp only
      rw [hb]
      obtain ⟨d, e1, e2⟩ := rem_eod hL hd hout
      have key : n + L.text.length + L.rem s ≤ L.maxFile := by
        cases hw : L.win with
        | some w =>
          have : L.rem s = L.owed := by simp [Level.rem, hw]
          omega
        | none =>
          have howed : L.owed = 0 := by simp [Level.owed, hw]
          have hrem : L.rem s = (L.lengthRead s).getD 0 := by simp [Level.rem, hw]
          cases hl : L.lengthRead s with
          | none => rw [hrem, hl, Option.getD_none]; omega
          | some k =>
            rw [hrem, hl, Option.getD_some]
            have hx : L.wouldExceed k = false := by
              cases hx : L.wouldExceed k with
              | false => rfl
              | true =>
                have := lengthRead_exceeds hl hx
                rw [decodeWindow_none hw, this] at hd
                simp at hd
            have := (wouldExceed_false hx).2.2 hroom
            omega
      simp only [List.length_nil, Nat.add_zero]
      omega
    | ok L' r =>
      obtain ⟨st, hwin, _, d, i4, i5, i6⟩ := decodeWindow_ok hL hd
      have hst := static_fields st.stat
      have e1 := rem_ok hL hd hout
      have hpl' : L'.planned = none := by rw [hst.planned, hpl]
      have hnr : L'.reachedPlanned = false := by simp [Level.reachedPlanned, hpl']
      have hO : Outputs n L' := by
        refine ⟨?_, by rw [hst.maxFile]; exact (hst.maxFile ▸ st.file hroom), st.out hout⟩
        have : L'.owed = 0 := by simp [Level.owed, hwin]
        have : L'.text.length = L.text.length + d.length := by
          simp only [Level.text, i4, i5, List.length_drop, List.length_append]; omega
        omega
      simp only [hnr, Bool.false_eq_true, if_false]
      by_cases ha : L'.allowTarget = true
      · simp only [ha, Bool.not_true, Bool.false_eq_true, if_false]
        obtain ⟨q1, q2⟩ := ih false st.inv hpl' hO r
        refine ⟨(hbt n).append (by simpa [hb] using q1), ?_⟩
        intro L2 r2 e
        obtain ⟨p1, p2, p3⟩ := q2 L2 r2 e
        rw [textOf_append, hb, List.nil_append, ← hst.maxFile]
        exact ⟨p1, p2, p3⟩
      · have ha' : L'.allowTarget = false := by simpa using ha
        simp only [ha', Bool.not_false, if_true]
        have hO' : Outputs (n + L'.flush.2.length) L'.flush.1 := by
          obtain ⟨c1, c2, c3⟩ := hO
          refine ⟨?_, c2, Nat.le_refl _⟩
          have : L'.owed = 0 := by simp [Level.owed, hwin]
          have h2 : L'.flush.1.owed = 0 := by simp [Level.owed, Level.flush, hwin]
          have h3 : L'.flush.1.text.length = 0 := by simp [Level.flush, Level.text]
          have h4 : L'.flush.2 = L'.text := rfl
          have h5 : L'.flush.1.total = L'.total := rfl
          rw [h2, h3, h4, h5]; omega
        obtain ⟨q1, q2⟩ := ih false (st.inv.flush hwin) (L := L'.flush.1) hpl' hO' r
        refine ⟨(hbt n).append (by rw [hb]; exact q1), ?_⟩
        intro L2 r2 e
        obtain ⟨p1, p2, p3⟩ := q2 L2 r2 e
        have ht : textOf (begun ++ OutEvent.op (OutOp.append L'.flush.2) :: (windowLoopEvents fuel false L'.flush.1 r).1) =
            L'.flush.2 ++ textOf (windowLoopEvents fuel false L'.flush.1 r).1 := by
          rw [textOf_append, hb]; rfl
        rw [ht, List.length_append, ← hst.maxFile]
        exact ⟨p1, p2, by have : L'.flush.1.maxFile = L'.maxFile := rfl; omega⟩

theorem windows_outputs (seen : Bool) {L : Level} (hL : NodeInv L) (hpl : L.planned = none) {n : Nat}
    (hn : n + L.owed = L.total) (hr : L.total ≤ L.maxFile) (s : Bytes) : ReserveOk L.maxFile n (chunkWindowsEvents seen L s) := by
  have ht : L.text.length = 0 := by simp [Level.text, hL.out]
  obtain ⟨p1, p2⟩ := loop_outputs L.maxFile (s.length + 2) seen hL.inv hpl (n := n) ⟨by omega, hr, Nat.le_of_eq hL.out⟩ s
  unfold chunkWindowsEvents
  refine p1.append ?_
  cases h2 : (windowLoopEvents (s.length + 2) seen L s).2 with
  | none => trivial
  | some q =>
    obtain ⟨L1, r⟩ := q
    obtain ⟨q1, q2, q3⟩ := p2 _ _ h2
    dsimp only
    unfold Level.appendNewOps
    rw [targetBytesRemaining_eq q1]
    have : (L1.decoded.drop L1.outPos).length = L1.text.length := rfl
    dsimp only
    split
    · split
      · exact ⟨by omega, trivial⟩
      · trivial
    · trivial

theorem table_outputs {L : Level} (hL : NodeInv L) (hc : L.cache ≠ none) (hw : L.win = none) (hpl : L.planned = none)
    {n : Nat} (hn : n = L.total) (hr : L.total ≤ L.maxFile) (x : Level) (xs : List Level) (s : Bytes) :
    ReserveOk L.maxFile n (codeTableEvents L x xs s) := by
  have howed : L.owed = 0 := by simp [Level.owed, hw]
  unfold codeTableEvents
  split
  · dsimp only
    split
    · trivial
    split
    · trivial
    split
    · split
      · trivial
      · exact windows_outputs (L := { L with tableString := [], table := _ }) false (hL.closed_windows hw hc _ []) hpl
          (by change n + L.owed = L.total; omega) hr _
    · trivial
  · trivial

theorem chunk_outputs {d : Decoder} (hd : DecInv d) {n : Nat}
    (hn : d.top.started = true → n + d.top.owed = d.top.total ∧ d.top.total ≤ d.top.maxFile) (data : Bytes) :
    ReserveOk d.top.maxFile n (d.chunkEvents data) := by
  obtain ⟨L, ns⟩ := d
  unfold Decoder.chunkEvents
  dsimp only at hn ⊢
  by_cases hs : L.started = false
  · rw [if_pos (by rw [hs]; rfl)]; trivial
  have hst : L.started = true := by simpa using hs
  rw [if_neg (by rw [hst]; decide)]
  obtain ⟨h1, h2⟩ := hn hst
  obtain ⟨hch, hpl⟩ := hd hst
  have hnode := hch.node
  dsimp only at hpl hnode hch
  cases hc : L.cache with
  | some c =>
    have hcn : L.cache ≠ none := by rw [hc]; simp
    dsimp only
    cases ns with
    | nil => exact windows_outputs _ hnode hpl h1 h2 _
    | cons x xs =>
      obtain ⟨_, hwait, _, _⟩ := hch
      have : L.owed = 0 := by simp [Level.owed, hwait.win]
      exact table_outputs hnode hcn hwait.win hpl (by omega) h2 x xs _
  | none =>
    dsimp only
    cases hr : readFileHeader (L.unparsed ++ data) with
    | error => trivial
    | endOfData => trivial
    | ok hdr rest =>
      obtain ⟨f1, _, _⟩ := hnode.fresh hc
      have hL0 : L.owed = 0 := by simp [Level.owed, f1]
      obtain ⟨i1, i2, i3, i4, i5, i6, i7, i8, i9⟩ := withHeader_inv hnode hc hdr
      have hpl' : (L.withHeader hdr).planned = none := i9.planned.trans hpl
      have ho : (L.withHeader hdr).owed = 0 := by simp [Level.owed, i4]
      have hT : (L.withHeader hdr).total = L.total := by
        obtain ⟨v, cs⟩ := hdr
        cases cs <;> rfl
      have hM := i9.maxFile
      obtain ⟨v, cs⟩ := hdr
      cases cs with
      | none => exact windows_outputs (L := L.withHeader ⟨v, none⟩) false i1 hpl' (by omega) (by omega) rest
      | some p =>
        obtain ⟨near, same⟩ := p
        exact table_outputs (L := L.withHeader ⟨v, some (near, same)⟩) i1 i2 i4 hpl' (by omega) (by omega) _ _ rest

theorem events_outputs {d : Decoder} (hd : DecInv d) {n : Nat}
    (hn : d.top.started = true → n + d.top.owed = d.top.total ∧ d.top.total ≤ d.top.maxFile) (cs : List Bytes) :
    ReserveOk d.top.maxFile n (d.events (cs.map .chunk)) := by
  induction cs generalizing d n with
  | nil => trivial
  | cons c cs ih =>
    rw [List.map_cons, Decoder.events]
    refine (chunk_outputs hd hn c).append ?_
    cases hcall : d.call (.chunk c) with
    | error f => trivial
    | ok q =>
      obtain ⟨r, d'⟩ := q
      dsimp only
      have hd' := hd.call hcall
      obtain ⟨x1, x2⟩ := chunk_erase hd c
      by_cases hs : d.top.started = true
      · obtain ⟨hch, hpl⟩ := hd hs
        obtain ⟨a1, a2⟩ := hn hs
        obtain ⟨c1, c2, _⟩ := chunk_inv hch c
        simp only [Decoder.call] at hcall
        cases hr : d.decodeChunk c with
        | fault f => simp [hr] at hcall
        | error L o =>
          simp only [hr, Except.ok.injEq, Prod.mk.injEq] at hcall
          obtain ⟨rfl, rfl⟩ := hcall
          rw [decodeChunk_eq] at hr
          have he := c2 _ _ hr
          have hm : L.maxFile = d.top.maxFile := he.maxFile
          rw [← hm]
          exact ih hd' (fun hx => by
            have hx' : L.started = true := hx
            rw [he.stopped] at hx'; simp at hx')
        | ok L ns o =>
          simp only [hr, Except.ok.injEq, Prod.mk.injEq] at hcall
          obtain ⟨rfl, rfl⟩ := hcall
          rw [← x1 _ _ _ hr]
          rw [decodeChunk_eq] at hr
          have he := c1 _ _ _ hr
          have ht := he.total
          have hf := he.file a2
          have hm : L.maxFile = d.top.maxFile := he.config.maxFile
          rw [← hm]
          exact ih hd' (fun _ => ⟨by change n + o.length + L.owed = L.total; omega, hf⟩)
      · have hs' : d.top.started = false := by simpa using hs
        rw [chunk_stopped hs'] at hcall
        simp only [Except.ok.injEq, Prod.mk.injEq] at hcall
        obtain ⟨rfl, rfl⟩ := hcall
        have hm : d.top.reset.maxFile = d.top.maxFile := rfl
        rw [← hm]
        exact ih hd' (fun hx => by simp [Level.reset] at hx)

end Vcd
