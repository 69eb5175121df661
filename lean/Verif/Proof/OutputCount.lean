import Verif.Proof.OutputString
import Verif.Proof.RfcChain

/-!
# The windows that the output string is told about are those of the delta file
-/

namespace Vcd
open Spec

variable {c : Coding} {ext : Bool} {tol : Tolerance} {s : Settings} {dict : Bytes} {left : CodeTable} {p0 : Bytes}

theorem Spec.WindowsN.forget {n : Nat} {prev ws T : Bytes} (h : WindowsN c ext tol s dict n prev ws T) :
    Windows c ext tol s dict prev ws T := by
  induction h with
  | nil => exact .nil
  | cons h1 _ ih => exact .cons h1 ih

theorem Spec.WindowsN.snoc {n : Nat} {prev ws T w T2 : Bytes} (h : WindowsN c ext tol s dict n prev ws T)
    (hw : WindowCode c ext tol s dict (prev ++ T) w T2) : WindowsN c ext tol s dict (n + 1) prev (ws ++ w) (T ++ T2) := by
  induction h with
  | nil =>
    have := WindowsN.cons hw .nil
    simpa using this
  | @cons n prev w1 T1 ws Ts h1 _ ih =>
    rw [List.append_assoc, List.append_assoc]
    exact .cons h1 (ih (by rw [List.append_assoc]; exact hw))

theorem windowsOf_append (a b : List OutEvent) : windowsOf (a ++ b) = windowsOf a + windowsOf b := List.count_append

theorem windowsOf_ops (ops : List OutOp) : windowsOf (ops.map .op) = 0 := by
  unfold windowsOf
  rw [List.count_eq_zero]
  simp

/-- 1 if the size of the next window has been read, and 0 otherwise. -/
def Level.begun (L : Level) (seen : Bool) : Nat := if L.win.isSome || seen then 1 else 0

theorem lengthRead_ok {L L' : Level} (hL : LevelInv L) {s r : Bytes} (h : decodeWindow L s = .ok L' r) (hw : L.win = none) :
    (L.lengthRead s).isSome = true := by
  obtain ⟨_, _, _, _, h1, _⟩ := (decodeWindow_inv hL s).1 _ _ h
  obtain ⟨hdr, rest, h2, _⟩ := h1 hw
  rw [lengthRead_header h2]; rfl

theorem begun_append (L : Level) (seen : Bool) (s : Bytes) (h : seen = true → L.win = none → (L.lengthRead s).isSome = true)
    (h2 : L.win = none → (L.lengthRead s).isSome = true) :
    windowsOf (if L.win.isNone && !seen && (L.lengthRead s).isSome then [OutEvent.window] else []) + L.begun seen = 1 := by
  unfold Level.begun
  cases hw : L.win with
  | some w => simp [windowsOf]
  | none =>
    rw [h2 hw]
    cases seen <;> rfl

/-- Every window that is complete has been announced once, and so has the next one if its size is known. -/
theorem Track.count (htol : tol.dangling = true) (hex : tol.excess = true ∨ ext = false) (fuel : Nat) (seen : Bool) {L : Level}
    {r ws u T d data : Bytes} {n : Nat} (h : Track c ext tol s dict p0 L r ws u T d) (hN : WindowsN c ext tol s dict n p0 ws T)
    (hpl : L.planned = none) (hseen : seen = true → L.win = none → (L.lengthRead (r ++ data)).isSome = true)
    {L' : Level} {r' : Bytes} (he : (windowLoopEvents fuel seen L (r ++ data)).2 = some (L', r')) :
    ∃ ws' u' T' d' n', ws' ++ u' = ws ++ u ++ data ∧ Track c ext tol s dict p0 L' r' ws' u' T' d' ∧
      WindowsN c ext tol s dict n' p0 ws' T' ∧
      windowsOf (windowLoopEvents fuel seen L (r ++ data)).1 + n + L.begun seen =
        n' + L'.begun (L'.lengthRead r').isSome := by
  induction fuel generalizing seen L r ws u T d data n with
  | zero => simp [windowLoopEvents] at he
  | succ fuel ih =>
    unfold windowLoopEvents at he ⊢
    by_cases hs : r ++ data = []
    · rw [if_pos hs] at he ⊢
      simp only [Option.some.injEq, Prod.mk.injEq] at he
      obtain ⟨rfl, rfl⟩ := he
      have h0 : r = [] ∧ data = [] := by simpa using hs
      obtain ⟨rfl, rfl⟩ := h0
      refine ⟨ws, u, T, d, n, by simp, by simpa using h, hN, ?_⟩
      have hb : L.begun seen = L.begun (L.lengthRead ([] ++ [])).isSome := by
        unfold Level.begun
        cases hw : L.win with
        | some w => rfl
        | none =>
          cases seen with
          | false => rfl
          | true => rw [hseen rfl hw]
      rw [hb]
      simp [windowsOf]
    · rw [if_neg hs] at he ⊢
      dsimp only at he ⊢
      cases hd : decodeWindow L (r ++ data) with
      | fault f => rw [hd] at he; simp at he
      | error => rw [hd] at he; simp at he
      | endOfData L1 r1 =>
        simp only [hd, Option.some.injEq, Prod.mk.injEq] at he ⊢
        obtain ⟨rfl, rfl⟩ := he
        obtain ⟨dd, k1, _⟩ := h.eod hd
        refine ⟨ws, u ++ data, T, d ++ dd, n, by simp, k1, hN, ?_⟩
        rcases (decodeWindow_inv h.inv (r ++ data)).2.1 _ _ hd with ⟨j1, j2, j3⟩ | ⟨_, _, ⟨_, _, _, _, _, _, j2, _⟩, j4, _⟩
        · rw [j2, j3]
          unfold Level.begun
          rw [j1]
          cases hsn : seen with
          | true => rw [hseen hsn j1]; simp [windowsOf]
          | false =>
            cases (L.lengthRead (r ++ data)).isSome
            · simp [windowsOf]
            · simp [windowsOf]; omega
        · have hw1 : L1.win.isSome = true := by rw [j2]; rfl
          have hb1 : L1.begun (L1.lengthRead r1).isSome = 1 := by simp [Level.begun, hw1]
          rw [hb1]
          have := begun_append L seen (r ++ data) hseen (fun hw => by
            obtain ⟨hdr, rest, k, _⟩ := j4 hw
            rw [lengthRead_header k]; rfl)
          omega
      | ok L1 r1 =>
        simp only [hd] at he ⊢
        obtain ⟨i1, i2, _⟩ := decodeWindow_ok h.inv hd
        obtain ⟨w, T2, e1, e2, e2', e3, e4, e5⟩ := h.window htol hex hd
        have hst := static_fields i1.stat
        have hp1 : L1.planned = none := hst.planned.trans hpl
        have hrp : L1.reachedPlanned = false := by simp [Level.reachedPlanned, hp1]
        have hbeg := begun_append L seen (r ++ data) hseen (fun hw => lengthRead_ok h.inv hd hw)
        have hnx := StepInv.next i1.inv i2
        have hal : s.allowTarget = false → L1.allowTarget = false := fun ha => by
          rw [hst.allowTarget, ← h.allow]; exact ha
        have hT2 := e3.next.track e2 (hnx.out e4) (fun ha _ => next_decoded (hal ha)) r1
        have hN2 := hN.snoc e2'
        have hpn : L1.next.1.planned = none := (static_fields hnx.stat).planned.trans hp1
        have hwn : L1.next.1.begun false = 0 := by
          have : L1.next.1.win = none := e3.next.fits.win
          simp [Level.begun, this]
        simp only [hrp, Bool.false_eq_true, if_false] at he ⊢
        by_cases ha : (!L1.allowTarget) = true
        · have hf : L1.next.1 = L1.flush.1 := by
            have : L1.allowTarget = false := by simpa using ha
            simp [Level.next, this]
          simp only [ha, if_true] at he ⊢
          rw [hf] at hT2 hpn hwn
          obtain ⟨ws', u', T', d', n', k1, k2, k3, k4⟩ := ih false hT2 hN2 hpn (data := []) (by simp)
            (by rw [List.append_nil]; exact he)
          rw [List.append_nil] at k4
          refine ⟨ws', u', T', d', n', by rw [k1, List.append_nil, e1], k2, k3, ?_⟩
          rw [windowsOf_append, windowsOf_cons]
          have : windowsOf [OutEvent.op (OutOp.append L1.flush.2)] = 0 := rfl
          omega
        · have hf : L1.next.1 = L1 := by
            have : L1.allowTarget = true := by simpa using ha
            simp [Level.next, this]
          simp only [ha, if_false, Bool.false_eq_true] at he ⊢
          rw [hf] at hT2 hpn hwn
          obtain ⟨ws', u', T', d', n', k1, k2, k3, k4⟩ := ih false hT2 hN2 hpn (data := []) (by simp)
            (by rw [List.append_nil]; exact he)
          rw [List.append_nil] at k4
          refine ⟨ws', u', T', d', n', by rw [k1, List.append_nil, e1], k2, k3, ?_⟩
          rw [windowsOf_append]
          omega

/-- The same for the loop and what follows it. -/
theorem Track.chunkCount (htol : tol.dangling = true) (hex : tol.excess = true ∨ ext = false) (seen : Bool) {L : Level}
    {r ws u T d data : Bytes} {n : Nat} (h : Track c ext tol s dict p0 L r ws u T d) (hN : WindowsN c ext tol s dict n p0 ws T)
    (hpl : L.planned = none) (hseen : seen = true → L.win = none → (L.lengthRead (r ++ data)).isSome = true)
    {L' : Level} {ns : List Level} {o : Bytes} (he : decodeChunkWindows L (r ++ data) = .ok L' ns o) :
    ns = [] ∧ ∃ ws' u' T' d' n', ws' ++ u' = ws ++ u ++ data ∧ Track c ext tol s dict p0 L' L'.unparsed ws' u' T' d' ∧
      WindowsN c ext tol s dict n' p0 ws' T' ∧
      windowsOf (chunkWindowsEvents seen L (r ++ data)) + n + L.begun seen =
        n' + L'.begun (L'.lengthRead L'.unparsed).isSome := by
  have hl := loop_erase ((r ++ data).length + 2) seen L (r ++ data) []
  unfold decodeChunkWindows at he
  unfold chunkWindowsEvents
  dsimp only
  cases hw : windowLoop ((r ++ data).length + 2) L (r ++ data) [] with
  | fault f => simp only [hw] at he; cases he
  | error f => simp only [hw] at he; cases he
  | done L1 r1 o1 =>
    simp only [hw] at hl he
    simp only [endChunk_eq, ChunkResult.ok.injEq] at he
    obtain ⟨rfl, rfl, _⟩ := he
    obtain ⟨ws', u', T', d', n', k1, k2, k3, k4⟩ := h.count htol hex _ seen hN hpl hseen hl.1
    refine ⟨rfl, ws', u', T', d', n', k1, k2.ended r1, k3, ?_⟩
    rw [hl.1, windowsOf_append, windowsOf_ops]
    exact k4

/-! ### From the header to the windows -/

theorem loop_stuck {L : Level} (hw : L.win = none) (hc : L.cache.bind AddrCache.init = none) (fuel : Nat) (seen : Bool)
    (r : Bytes) (hseen : seen = true → (L.lengthRead r).isSome = true) {L' : Level} {r' : Bytes}
    (he : (windowLoopEvents fuel seen L r).2 = some (L', r')) :
    L' = L ∧ r' = r ∧ windowsOf (windowLoopEvents fuel seen L r).1 + L.begun seen = L.begun (L.lengthRead r).isSome := by
  cases fuel with
  | zero => simp [windowLoopEvents] at he
  | succ fuel =>
    unfold windowLoopEvents at he ⊢
    by_cases hr : r = []
    · subst hr
      rw [if_pos rfl] at he ⊢
      simp only [Option.some.injEq, Prod.mk.injEq] at he
      refine ⟨he.1.symm, he.2.symm, ?_⟩
      have : seen = false := by
        cases seen with
        | false => rfl
        | true => simpa [lengthRead_nil] using hseen rfl
      rw [this, lengthRead_nil]
      simp [windowsOf]
    · rw [if_neg hr] at he ⊢
      rw [decodeWindow_none hw] at he ⊢
      cases hh : readHeader L r with
      | error => simp [hh] at he
      | ok hdr rest => simp [hh, hc] at he
      | endOfData =>
        simp only [hh, Option.some.injEq, Prod.mk.injEq] at he ⊢
        refine ⟨he.1.symm, he.2.symm, ?_⟩
        unfold Level.begun
        rw [hw]
        cases hsn : seen with
        | true => rw [hseen hsn]; simp [windowsOf]
        | false => cases (L.lengthRead r).isSome <;> simp [windowsOf]

/-- What has been accepted of a file and how many windows have been announced, when `b` has been fed. -/
inductive CountTrack (tol : Tolerance) (s : Settings) (dict : Bytes) (left : CodeTable) : Decoder → Bytes → Nat → Prop
  | before {d : Decoder} {b x : Bytes} (track : ChainTrack tol s dict left d.top d.nested b x)
      (soon : d.top.cache = none ∨ d.nested ≠ []) : CountTrack tol s dict left d b 0
  | windows {d : Decoder} {hdr ws u T p : Bytes} {ext : Bool} {c : Coding} {n : Nat} (nested : d.nested = [])
      (cache : d.top.cache ≠ none) (header : FileHeaderCode tol hdr ext c left)
      (track : Track c ext tol s dict [] d.top d.top.unparsed ws u T p) (windows : WindowsN c ext tol s dict n [] ws T) :
      CountTrack tol s dict left d (hdr ++ ws ++ u) (n + d.top.begun (d.top.lengthRead d.top.unparsed).isSome)
  | stuck {d : Decoder} {hdr : Bytes} {ext : Bool} {c : Coding} (nested : d.nested = []) (cache : d.top.cache ≠ none)
      (init : d.top.cache.bind AddrCache.init = none) (win : d.top.win = none) (decoded : d.top.decoded = [])
      (header : FileHeaderCode tol hdr ext c left) :
      CountTrack tol s dict left d (hdr ++ d.top.unparsed) (d.top.begun (d.top.lengthRead d.top.unparsed).isSome)

theorem windowsOk_cache {L L' : Level} {ns : List Level} {r o : Bytes} (hL : NodeInv L) (hc : L.cache ≠ none)
    (he : decodeChunkWindows L r = .ok L' ns o) : L'.cache ≠ none := by
  obtain ⟨_, _, a3, _, _, _, _, _, _, _, _, _, a13⟩ := (windows_inv hL hc r).1 _ _ _ he
  cases hx : L.cache with
  | none => exact absurd hx hc
  | some c0 =>
    obtain ⟨c', h, _⟩ := a13 c0 hx
    rw [h]; simp

theorem count_enter (htol : tol.dangling = true) (hex : tol.excess = true) {L : Level} {hdr r b : Bytes}
    (hB : Between c ext s dict L []) (hL : NodeInv L) (hd : L.decoded = []) (hc : L.cache ≠ none)
    (hH : FileHeaderCode tol hdr ext c left) (hb : b = hdr ++ r) (hpl : L.planned = none) {L' : Level} {ns' : List Level} {o : Bytes}
    (he : decodeChunkWindows L r = .ok L' ns' o) :
    CountTrack tol s dict left { top := L', nested := ns' } b (windowsOf (chunkWindowsEvents false L r)) := by
  have hT : Track c ext tol s dict [] L r [] r [] [] := Between.track (by simpa using hB) .nil (Nat.le_of_eq hL.out)
    (fun _ _ => hd) r
  obtain ⟨rfl, ws', u', T', d', n', k1, k2, k3, k4⟩ := hT.chunkCount htol (Or.inl hex) false (data := []) .nil hpl (by simp)
    (by rw [List.append_nil]; exact he)
  have h0 : L.begun false = 0 := by
    have : L.win = none := hB.fits.win
    simp [Level.begun, this]
  rw [List.append_nil, h0, Nat.add_zero] at k4
  rw [k4]
  have := CountTrack.windows (d := { top := L', nested := [] }) rfl (windowsOk_cache hL hc he) hH k2 k3
  have e1 : hdr ++ ws' ++ u' = b := by rw [hb, List.append_assoc, k1]; simp
  rw [e1] at this
  exact this

theorem count_stuck {L : Level} {hdr r b : Bytes} (seen : Bool) (hd : L.decoded = []) (hc : L.cache ≠ none)
    (hi : L.cache.bind AddrCache.init = none) (hw : L.win = none) (hH : FileHeaderCode tol hdr ext c left) (hb : b = hdr ++ r)
    (hseen : seen = true → (L.lengthRead r).isSome = true) {L' : Level} {ns' : List Level} {o : Bytes}
    (he : decodeChunkWindows L r = .ok L' ns' o) :
    CountTrack tol s dict left { top := L', nested := ns' } b (L.begun seen + windowsOf (chunkWindowsEvents seen L r)) := by
  have hl := loop_erase (r.length + 2) seen L r []
  unfold decodeChunkWindows at he
  unfold chunkWindowsEvents
  dsimp only
  cases hwl : windowLoop (r.length + 2) L r [] with
  | fault f => simp only [hwl] at he; cases he
  | error f => simp only [hwl] at he; cases he
  | done L1 r1 o1 =>
    simp only [hwl] at hl he
    simp only [endChunk_eq, ChunkResult.ok.injEq] at he
    obtain ⟨rfl, rfl, _⟩ := he
    obtain ⟨rfl, rfl, k⟩ := loop_stuck hw hi _ seen r hseen hl.1
    rw [hl.1, windowsOf_append, windowsOf_ops, hb]
    have := CountTrack.stuck (tol := tol) (s := s) (dict := dict) (d := { top := L1.ended r1, nested := [] }) rfl hc hi hw hd hH
    have e : L1.begun seen + (windowsOf (windowLoopEvents (r1.length + 2) seen L1 r1).1 + 0) =
        (L1.ended r1).begun ((L1.ended r1).lengthRead (L1.ended r1).unparsed).isSome := by
      change _ = L1.begun (L1.lengthRead r1).isSome
      omega
    rw [e]
    exact this

theorem table_events {L n n' : Level} {ns ns' : List Level} {r text o : Bytes} {L2 : Level} {ns2 : List Level}
    (hrun : chunkRun n ns r = .ok n' ns' text) (hx : afterCodeTableChunk L n' ns' r text = .ok L2 ns2 o) :
    (ns2 ≠ [] ∧ codeTableEvents L n ns r = []) ∨
    ∃ h : (L.tableString ++ text).length = codeTableSize, ns2 = [] ∧
      codeTableEvents L n ns r = chunkWindowsEvents false
        { L with tableString := [], table := L.tableAfter (L.tableString ++ text) h } (r.drop (r.length - n'.unparsed.length)) := by
  unfold codeTableEvents
  rw [decodeChunk_eq]
  simp only [hrun]
  unfold afterCodeTableChunk at hx
  simp only at hx
  split at hx
  · rename_i h1
    rw [if_pos h1]
    simp only [endChunk_eq, ChunkResult.ok.injEq] at hx
    exact Or.inl ⟨by rw [← hx.2.1]; simp, rfl⟩
  · rename_i h1
    rw [if_neg h1]
    split at hx
    · cases hx
    · rename_i h2
      rw [if_neg h2]
      split at hx
      · rename_i h3
        rw [dif_pos h3]
        split at hx
        · cases hx
        · rename_i h4
          rw [if_neg h4]
          refine Or.inr ⟨h3, ?_, rfl⟩
          rw [decodeChunkWindows_eq] at hx
          split at hx
          · cases hx
          · cases hx
          · simp only [ChunkResult.ok.injEq] at hx
            exact hx.2.1.symm
      · cases hx

theorem ChainTrack.quiet {L : Level} {ns : List Level} {b x : Bytes} (h : ChainTrack tol s dict left L ns b x) (hn : ns ≠ []) :
    L.cache ≠ none := by
  cases h with
  | header => exact absurd rfl hn
  | table _ _ _ _ _ _ _ _ cache => rw [cache]; simp
  | windows => exact absurd rfl hn
  | stuck => exact absurd rfl hn

/-- What follows a chunk for the nested decoder. -/
theorem count_after (htol : tol.dangling = true) (hex : tol.excess = true) (htab : tol.tables = .library)
    {L n n' : Level} {ns ns' : List Level} {data text b x nb sb : Bytes} {hi : UInt8} {near same : Nat}
    (hL : NodeInv L) (hd : L.decoded = []) (hw : L.win = none) (ht : L.total = 0)
    (hstr : L.tableString = n.decoded) (hn : NestInv n ns) (hrun : chunkRun n ns data = .ok n' ns' text)
    (hr : ChunkOk n ns data n' ns' text)
    (conf : Conf s dict L) (table : L.table = left) (hv : L.version = 0 ∨ L.version = 0x53) (hhi : hi &&& 3 = 2)
    (hnb : NumCode nb near) (hnear : near ≤ 255) (hsb : NumCode sb same) (hsame : same ≤ 255)
    (cache : L.cache = some (AddrCache.new near same)) (hpl : L.planned = none)
    (inner : ChainTrack tol tableSettings defaultTable.toBytes defaultTable n' ns' b x) {L2 : Level} {ns2 : List Level} {o : Bytes}
    (hx : afterCodeTableChunk L n' ns' data text = .ok L2 ns2 o) :
    CountTrack tol s dict left { top := L2, nested := ns2 } ([0xD6, 0xC3, 0xC4, L.version, hi] ++ nb ++ sb ++ b)
      (windowsOf (codeTableEvents L n ns data)) := by
  have hc : L.cache ≠ none := by rw [cache]; simp
  have hCT := (ChainTrack.after htol hex htab hL hd hw ht hstr hn hr conf table hv hhi hnb hnear hsb hsame cache
    (by rw [hpl]; simp) inner).1 _ _ _ hx
  rcases table_events hrun hx with ⟨k1, k2⟩ | ⟨hl, k1, k2⟩
  · rw [k2]
    exact .before hCT (Or.inr k1)
  · rcases table_step hL hc hd hw ht hstr hn hr with ⟨L1, h1, h2, _⟩ | ⟨hlen, hns, hwn, hcn, ⟨pre, hpre⟩, h1⟩
    · rw [h1] at hx
      simp only [ChunkResult.ok.injEq] at hx
      rw [k1] at hx
      simp at hx
    · have hts : L.tableString ++ text = n'.decoded := by rw [hstr, hr.kept hn.target]
      have hrest : data.drop (data.length - n'.unparsed.length) = n'.unparsed := by
        rw [hpre]; simp
      have hta : L.tableAfter (L.tableString ++ text) hl = L.tableAfter n'.decoded hlen := by
        congr
      rw [k2, hrest, hta]
      rw [h1] at hx
      subst hns
      obtain ⟨hdr', ext', c', ws, w, T, T', e1, j1, j2, j3, j4, j5⟩ :=
        inner.tableFile (hr.config.planned.trans hn.planned) hcn hwn hlen
      have hN : NodeInv { L with tableString := [], table := L.tableAfter n'.decoded hlen } :=
        hL.closed_windows hw hc _ []
      have hconf : Conf s dict { L with tableString := [], table := L.tableAfter n'.decoded hlen } :=
        ⟨conf.allow, conf.window, conf.file, conf.dict⟩
      have hT : (T ++ T').length = 1536 := by rw [← j5]; exact hlen
      by_cases hsum : near + same ≤ 254
      · have hB := hconf.between hN hd hw ht cache hsum
        have hinst : Installed near same (CodeTable.ofBytes (T ++ T') hT) (L.tableAfter n'.decoded hlen) left := by
          have := Level.tableAfter_installed hlen cache hsum table
          have e : CodeTable.ofBytes n'.decoded hlen = CodeTable.ofBytes (T ++ T') hT := by
            congr
          rw [e] at this
          exact this
        have hH := FileHeaderCode.library htab hv hhi hnb hnear hsb hsame j1 j2 j3 j4 hT hinst
        exact count_enter htol hex hB hN hd hc hH (by rw [e1]; simp) hpl hx
      · obtain ⟨t, hinst⟩ := installed_exists near same (CodeTable.ofBytes (T ++ T') hT) left
        have hH := FileHeaderCode.library htab hv hhi hnb hnear hsb hsame j1 j2 j3 j4 hT hinst
        have hini : L.cache.bind AddrCache.init = none := by
          rw [cache]
          change (AddrCache.new near same).init = none
          rw [AddrCache.init_new, if_pos (by omega)]
        have := count_stuck (s := s) (dict := dict) (L := { L with tableString := [], table := L.tableAfter n'.decoded hlen })
          (b := [0xD6, 0xC3, 0xC4, L.version, hi] ++ nb ++ sb ++ b) false hd hc hini hw hH (by rw [e1]; simp) (by simp) hx
        have h0 : ({ L with tableString := [], table := L.tableAfter n'.decoded hlen } : Level).begun false = 0 := by
          simp [Level.begun, hw]
        rw [h0, Nat.zero_add] at this
        exact this

theorem CountTrack.chunk (htol : tol.dangling = true) (hex : tol.excess = true) (htab : tol.tables = .library)
    {d : Decoder} {b data : Bytes} {m : Nat} (hd : Fed d) (h : CountTrack tol s dict left d b m) {L' : Level} {ns' : List Level}
    {o : Bytes} (hr : chunkRun d.top d.nested data = .ok L' ns' o) :
    CountTrack tol s dict left { top := L', nested := ns' } (b ++ data) (m + windowsOf (d.chunkEvents data)) := by
  obtain ⟨L, ns⟩ := d
  have hL := hd.chain.node
  have hst : (!L.started) = false := by
    have : L.started = true := hL.started
    rw [this]; rfl
  have hpl : L.planned = none := hd.planned
  unfold Decoder.chunkEvents
  simp only at hr ⊢
  rw [if_neg (by rw [hst]; simp)]
  cases h with
  | before track soon =>
    have hCT := (ChainTrack.chunk htol hex htab data hd.chain (Or.inl hd.planned) track).1 _ _ _ hr
    simp only at track soon hCT
    rw [Nat.zero_add]
    cases track with
    | stuck cache => rcases soon with h | h <;> simp_all
    | windows cache => rcases soon with h | h <;> simp_all
    | header conf table cache =>
      rw [chunkRun_eq, chunkStep, if_neg (by have := hL.started; simp only at this; rw [this]; simp)] at hr
      simp only [cache] at hr ⊢
      cases hh : readFileHeader (L.unparsed ++ data) with
      | error => simp [hh, failed] at hr
      | endOfData =>
        simp only [hh, endChunk_eq, ChunkResult.ok.injEq] at hr
        obtain ⟨rfl, rfl, rfl⟩ := hr
        simp only [windowsOf, List.count_nil]
        exact .before hCT (Or.inl cache)
      | ok hdr rest =>
        obtain ⟨w1, w2, w3, w4, w5, w6, w7, w8, w9⟩ := withHeader_inv hL cache hdr
        have hconf := conf.withHeader hdr
        have htab' : (L.withHeader hdr).table = left := w7.1.trans table
        have hpl' : (L.withHeader hdr).planned = none := w9.planned.trans hpl
        simp only [hh] at hr ⊢
        cases hcs : hdr.caches with
        | none =>
          obtain ⟨hi, a1, a2, a3⟩ := readFileHeader_plain hh hcs
          have hn : nestedFor hdr [] = [] := by simp [nestedFor, hcs]
          have hcache : (L.withHeader hdr).cache = some (AddrCache.new 4 3) := by
            simp only [Level.withHeader, hcs]; rfl
          simp only [hn, tableStep] at hr
          have hB := hconf.between w1 w3 w4 w5 hcache (by decide)
          rw [htab', w6] at hB
          have hH : FileHeaderCode tol [0xD6, 0xC3, 0xC4, hdr.version, hi] (hdr.version == 0x53)
              { defaultCoding with table := left } left := .plain a2 a1
          have hwh : L.withHeader hdr = { L with version := hdr.version, cache := some AddrCache.newDefault } := by
            simp only [Level.withHeader, hcs]
          have := count_enter htol hex hB w1 w3 w2 hH a3 hpl' hr
          rw [hwh] at this
          exact this
        | some p =>
          obtain ⟨near, same⟩ := p
          obtain ⟨hi, nb, sb, a1, a2, a3, a4, a5, a6, a7⟩ := readFileHeader_custom hh hcs
          have hn : nestedFor hdr [] = [Level.forCodeTable] := by simp [nestedFor, hcs]
          have hcache : (L.withHeader hdr).cache = some (AddrCache.new near same) := by
            simp only [Level.withHeader, hcs]
          have hstr : (L.withHeader hdr).tableString = Level.forCodeTable.decoded := by
            simp only [Level.withHeader, hcs]; rfl
          simp only [hn, tableStep] at hr
          obtain ⟨_, hnI, hcI⟩ := forCodeTable_inv
          have hinner : ChainTrack tol tableSettings defaultTable.toBytes defaultTable Level.forCodeTable [] [] [] :=
            ChainTrack.header (L := Level.forCodeTable) Conf.forCodeTable rfl rfl
          obtain ⟨i1, _⟩ := ChainTrack.chunk htol hex htab rest hcI (Or.inr hnI) hinner
          have hwh : L.withHeader hdr =
              { L with version := hdr.version, cache := some (AddrCache.new near same), tableString := [] } := by
            simp only [Level.withHeader, hcs]
          cases hrn : chunkRun Level.forCodeTable [] rest with
          | fault f => simp [hrn] at hr
          | error L2 o2 => simp [hrn, failed] at hr
          | ok n' ns'' text =>
            simp only [hrn] at hr
            have hok := (chunk_inv hcI rest).1 _ _ _ hrn
            have := count_after htol hex htab w1 w3 w4 w5 hstr hnI hrn hok hconf htab' (by rw [w6]; exact a2) a1 a3 a4 a5 a6
              hcache hpl' (i1 _ _ _ hrn) hr
            rw [w6, List.nil_append, ← a7, hwh] at this
            exact this
    | @table _ _ b x nb sb _ _ n ns hi near same conf table hv hhi hnb hn hsb hs cache inner =>
      obtain ⟨_, hwait, hnI, hcI⟩ := hd.chain
      have hu : L.unparsed = [] := hwait.unparsed
      obtain ⟨i1, _⟩ := ChainTrack.chunk htol hex htab data hcI (Or.inr hnI) inner
      rw [chunkRun_eq, chunkStep, if_neg (by have := hL.started; simp only at this; rw [this]; simp)] at hr
      simp only [cache, hu, List.nil_append, tableStep] at hr ⊢
      cases hrn : chunkRun n ns data with
      | fault f => simp [hrn] at hr
      | error L2 o2 => simp [hrn, failed] at hr
      | ok n' ns'' text =>
        simp only [hrn] at hr
        have hok := (chunk_inv hcI data).1 _ _ _ hrn
        have := count_after htol hex htab hL hwait.decoded hwait.win hwait.total hwait.str hnI hrn hok conf table hv hhi
          hnb hn hsb hs cache hpl (i1 _ _ _ hrn) hr
        simpa using this
  | @windows hdr ws u T p ext c n nested cache header track windows =>
    simp only at nested cache track
    subst nested
    rw [chunkRun_windows hL cache] at hr
    cases hcc : L.cache with
    | none => exact absurd hcc cache
    | some c0 =>
      simp only
      obtain ⟨rfl, ws', u', T', d', n', k1, k2, k3, k4⟩ := track.chunkCount htol (Or.inl hex) (L.lengthRead L.unparsed).isSome windows
        hpl (data := data) (fun h1 _ => by
          cases hl : L.lengthRead L.unparsed with
          | none => simp [hl] at h1
          | some v => rw [lengthRead_append hl]; rfl) hr
      have := CountTrack.windows (d := { top := L', nested := [] }) rfl (windowsOk_cache hL cache hr) header k2 k3
      have e1 : hdr ++ ws' ++ u' = hdr ++ ws ++ u ++ data := by rw [List.append_assoc, k1]; simp
      rw [e1, ← k4] at this
      have e2 : n + L.begun (L.lengthRead L.unparsed).isSome +
          windowsOf (chunkWindowsEvents (L.lengthRead L.unparsed).isSome L (L.unparsed ++ data)) =
          windowsOf (chunkWindowsEvents (L.lengthRead L.unparsed).isSome L (L.unparsed ++ data)) + n +
            L.begun (L.lengthRead L.unparsed).isSome := by omega
      rw [e2]
      exact this
  | @stuck hdr ext c nested cache init win decoded header =>
    simp only at nested cache init win decoded
    subst nested
    rw [chunkRun_windows hL cache] at hr
    cases hcc : L.cache with
    | none => exact absurd hcc cache
    | some c0 =>
      simp only
      exact count_stuck _ decoded cache init win header (by simp) (fun h1 => by
          cases hl : L.lengthRead L.unparsed with
          | none => simp [hl] at h1
          | some v => rw [lengthRead_append hl]; rfl) hr

theorem CountTrack.feed (htol : tol.dangling = true) (hex : tol.excess = true) (htab : tol.tables = .library) {d e : Decoder}
    {b o : Bytes} {m : Nat} {cs : List Bytes} (hd : Fed d) (h : CountTrack tol s dict left d b m) (hf : d.feed cs = some (o, e)) :
    CountTrack tol s dict left e (b ++ cs.flatten) (m + windowsOf (d.events (cs.map .chunk))) := by
  induction cs generalizing d b o m with
  | nil =>
    simp only [Decoder.feed, Option.some.injEq, Prod.mk.injEq] at hf
    obtain ⟨rfl, rfl⟩ := hf
    simpa [Decoder.events, windowsOf] using h
  | cons a cs ih =>
    obtain ⟨L1, ns1, o1, o2, h1, h2, rfl⟩ := feed_cons_some hf
    have hcall : d.call (.chunk a) = .ok ({ ret := true, out := o1 }, { top := L1, nested := ns1 }) := by
      simp only [Decoder.call, decodeChunk_eq, h1]
    rw [List.flatten_cons, ← List.append_assoc, List.map_cons, Decoder.events, windowsOf_append, hcall, ← Nat.add_assoc]
    exact ih (hd.next h1) (h.chunk htol hex htab hd h1) h2

theorem CountTrack.complete {e : Decoder} {b : Bytes} {m : Nat} (hfe : Fed e) (h : CountTrack tol s dict left e b m)
    (h2 : e.finish.1 = true) :
    (b = [] ∧ m = 0) ∨ ∃ hdr ext c ws T, b = hdr ++ ws ∧ FileHeaderCode tol hdr ext c left ∧ WindowsN c ext tol s dict m [] ws T := by
  unfold Decoder.finish Level.isComplete at h2
  cases h with
  | before track soon =>
    generalize hns : e.nested = ns at track h2 soon
    cases track with
    | header conf table cache =>
      rw [cache] at h2
      simp only [Bool.and_eq_true] at h2
      exact Or.inl ⟨by simpa using h2.2, rfl⟩
    | table conf table hv hhi hnb hn hsb hs cache inner =>
      rw [cache] at h2
      simp at h2
    | windows cache => rcases soon with h | h <;> simp_all
    | stuck cache => rcases soon with h | h <;> simp_all
  | @windows hdr ws u T p ext c n nested cache header track windows =>
    cases hcc : e.top.cache with
    | none => exact absurd hcc cache
    | some c0 =>
      rw [hcc] at h2
      simp only [hfe.notDone, Bool.and_eq_true] at h2
      have h2' := h2.2
      cases hw : e.top.win with
      | some w => simp [hw] at h2'
      | none =>
        simp [hw] at h2'
        have h2' := h2'.2
        obtain ⟨Lc, k1, k2, _, k4, k5⟩ := track.base
        obtain ⟨e1, e2⟩ := k4 hw
        rw [h2'] at e2
        subst e2
        refine Or.inr ⟨hdr, ext, c, ws, T, by simp, header, ?_⟩
        have : e.top.begun (e.top.lengthRead e.top.unparsed).isSome = 0 := by
          rw [h2', lengthRead_nil]
          simp [Level.begun, hw]
        rw [this]
        exact windows
  | @stuck hdr ext c nested cache init win decoded header =>
    cases hcc : e.top.cache with
    | none => exact absurd hcc cache
    | some c0 =>
      rw [hcc] at h2
      simp only [hfe.notDone, Bool.and_eq_true, win] at h2
      have h2' : e.nested = [] ∧ e.top.unparsed = [] := by simpa using h2.2
      have h2' := h2'.2
      have : e.top.begun (e.top.lengthRead e.top.unparsed).isSome = 0 := by
        rw [h2', lengthRead_nil]
        simp [Level.begun, win]
      rw [this, h2']
      exact Or.inr ⟨hdr, ext, c, [], [], by simp, header, .nil⟩

/-- After a complete decode, as many windows have been announced as the file has. -/
theorem decode_count {d : Decoder} (hs : d.top.started = false) (ht : d.top.table = defaultTable)
    (allow : s.allowTarget = d.top.allowTarget) (window : s.maxWindow = d.top.maxWin)
    (file : s.maxFile = d.top.maxFile) {dict T : Bytes} {cs : List Bytes} (h : d.decode dict cs = some T) :
    ∃ T', FileCodeN library s dict (windowsOf ((d.start dict).events (cs.map .chunk))) cs.flatten T' := by
  obtain ⟨e, h1, h2⟩ := decode_some.1 h
  have hf := Fed.start d hs dict
  have h0 : CountTrack library s dict defaultTable (d.start dict) [] 0 :=
    .before (FileTrack.start (tol := library) d hs ht allow window file dict) (Or.inl (by rw [start_fresh hs]; rfl))
  have hc := h0.feed rfl rfl rfl hf h1
  rw [List.nil_append, Nat.zero_add] at hc
  rcases hc.complete (hf.feed h1) h2 with ⟨e1, e2⟩ | ⟨hdr, ext, c, ws, T', e1, hH, hw⟩
  · rw [e1, e2]; exact ⟨[], .empty rfl⟩
  · rw [e1]; exact ⟨T', .mk hH hw⟩

theorem Spec.FileCodeN.forget {n : Nat} {delta T : Bytes} (h : FileCodeN tol s dict n delta T) : FileCode tol s dict delta T := by
  cases h with
  | mk h1 h2 => exact .mk h1 h2.forget
  | empty h => exact .empty h

end Vcd
