import Verif.Proof.RfcWindow
import Verif.Proof.Deliver

/-!
# `DecodeChunk` and the grammar of delta files
-/

namespace Vcd
open Spec

/-- A decoder between windows of a file with coding `c`, when `prev` is the target so far. -/
structure Between (c : Coding) (ext : Bool) (s : Settings) (dict : Bytes) (L : Level) (prev : Bytes) : Prop where
  fits : Fits L s prev
  cache : L.cache.bind AddrCache.init = some (AddrCache.ofHist c.near c.same [])
  sum : c.near + c.same ≤ 254
  table : L.table = c.table
  ext : L.allowExtensions = ext
  dict : L.dict = dict

variable {c : Coding} {ext : Bool} {tol : Tolerance} {s : Settings} {dict : Bytes}

theorem Between.setOut {L : Level} {prev : Bytes} (h : Between c ext s dict L prev) (p : Nat) :
    Between c ext s dict (L.setOut p) prev :=
  ⟨⟨h.fits.win, h.fits.inv.setOut p, h.fits.allow, h.fits.window, h.fits.file, h.fits.total, h.fits.le, h.fits.dec⟩,
    h.cache, h.sum, h.table, h.ext, h.dict⟩

theorem Between.setUnparsed {L : Level} {prev : Bytes} (h : Between c ext s dict L prev) (u : Bytes) :
    Between c ext s dict (L.setUnparsed u) prev :=
  ⟨⟨h.fits.win, h.fits.inv.setUnparsed u, h.fits.allow, h.fits.window, h.fits.file, h.fits.total, h.fits.le, h.fits.dec⟩,
    h.cache, h.sum, h.table, h.ext, h.dict⟩

theorem Between.next {L : Level} {prev : Bytes} (h : Between c ext s dict L prev) :
    Between c ext s dict L.next.1 prev := by
  have hi := h.fits.inv.next h.fits.win
  unfold Level.next at hi ⊢
  split
  · exact h
  · rename_i ha
    rw [if_neg ha] at hi
    exact ⟨⟨h.fits.win, hi, h.fits.allow, h.fits.window, h.fits.file, h.fits.total, h.fits.le, fun hx => absurd hx ha⟩,
      h.cache, h.sum, h.table, h.ext, h.dict⟩

theorem Between.done {L : Level} {prev T : Bytes} {hist : List Nat} (h : Between c ext s dict L prev)
    (hi : LevelInv (L.done (AddrCache.ofHist c.near c.same hist) T)) (hT : prev.length + T.length ≤ s.maxFile) :
    Between c ext s dict (L.done (AddrCache.ofHist c.near c.same hist) T) (prev ++ T) := by
  refine ⟨⟨rfl, hi, h.fits.allow, h.fits.window, h.fits.file, ?_, ?_, ?_⟩, ?_, h.sum, h.table, h.ext, h.dict⟩
  · change L.total + T.length = _
    rw [h.fits.total, List.length_append]
  · rw [List.length_append]
    change _ ≤ L.cap
    rw [← h.fits.file]
    exact hT
  · intro ha
    change L.decoded ++ T = _
    rw [h.fits.dec ha]
  · change (AddrCache.ofHist c.near c.same hist).init = _
    rw [AddrCache.init_ofHist, if_neg (by have := h.sum; omega)]

theorem Spec.WindowCode.fits {prev w T : Bytes} (h : WindowCode c ext tol s dict prev w T) :
    prev.length + T.length ≤ s.maxFile := by
  cases h with
  | mk => assumption

theorem Spec.WindowCode.ne_nil {prev w T : Bytes} (h : WindowCode c ext tol s dict prev w T) : w ≠ [] := by
  cases h with
  | mk => simp

theorem Between.sound {L L' : Level} {prev inp r : Bytes} (h : Between c ext s dict L prev)
    (htol : tol.dangling = true) (hex : tol.excess = true ∨ r ≠ [] ∨ ext = false)
    (hd : decodeWindow L inp = .ok L' r) :
    ∃ w T, inp = w ++ r ∧ WindowCode c ext tol s dict prev w T ∧ Between c ext s dict L' (prev ++ T) ∧
      L'.decoded = L.decoded ++ T ∧ L'.outPos = L.outPos := by
  obtain ⟨w, T, hist, h1, h2, h3⟩ := decodeWindow_sound h.fits h.sum h.cache htol hd (by rw [h.ext]; exact hex)
  have hc : (⟨L.table, c.near, c.same⟩ : Coding) = c := by rw [h.table]
  rw [hc, h.ext, h.dict] at h2
  refine ⟨w, T, h1, h2, ?_, by rw [h3]; rfl, by rw [h3]; rfl⟩
  have hi := (decodeWindow_ok h.fits.inv hd).1.inv
  rw [h3] at hi ⊢
  exact h.done hi h2.fits

theorem Between.complete {L : Level} {prev w T r : Bytes} (h : Between c ext s dict L prev)
    (hw : WindowCode c ext tol s dict prev w T) (hex : tol.excess = false ∨ r = []) (htr : tol.trailing = false)
    (hmn : tol.manyNear = false) :
    ∃ L', decodeWindow L (w ++ r) = .ok L' r ∧ Between c ext s dict L' (prev ++ T) ∧
      L'.decoded = L.decoded ++ T ∧ L'.outPos = L.outPos ∧ L'.planned = L.planned := by
  have hc : (⟨L.table, c.near, c.same⟩ : Coding) = c := by rw [h.table]
  have hw' : WindowCode ⟨L.table, c.near, c.same⟩ L.allowExtensions tol s L.dict prev w T := by
    rw [hc, h.ext, h.dict]; exact hw
  obtain ⟨hist, h1⟩ := decodeWindow_complete h.fits h.sum h.cache hw' hex htr hmn
  refine ⟨_, h1, h.done (decodeWindow_ok h.fits.inv h1).1.inv hw.fits, rfl, rfl, rfl⟩

theorem Spec.Windows.snoc {prev ws T w T' : Bytes} (h : Windows c ext tol s dict prev ws T)
    (hw : WindowCode c ext tol s dict (prev ++ T) w T') : Windows c ext tol s dict prev (ws ++ w) (T ++ T') := by
  induction h with
  | nil =>
    rw [List.append_nil] at hw
    have := Windows.cons hw (Windows.nil)
    simpa using this
  | cons h1 _ ih =>
    rw [List.append_assoc, List.append_assoc]
    exact .cons h1 (ih (by rw [List.append_assoc]; exact hw))

/-! ### Soundness -/

/-- A decoder that, after the target `p0`, has decoded the windows `ws` to `T`, and `u` of the next
window to `d`; `r` is the part of `u` it has not taken yet. -/
structure Track (c : Coding) (ext : Bool) (tol : Tolerance) (s : Settings) (dict p0 : Bytes) (L : Level)
    (r ws u T d : Bytes) : Prop where
  windows : Windows c ext tol s dict p0 ws T
  base : ∃ Lc, Between c ext s dict Lc (p0 ++ T) ∧ L.decoded = Lc.decoded ++ d ∧
    (∀ t, (decodeWindow L (r ++ t)).skip = (decodeWindow Lc (u ++ t)).skip) ∧ (L.win = none → L = Lc ∧ u = r) ∧
    (s.allowTarget = false → L.planned = none → Lc.decoded = [])
  inv : LevelInv L
  out : L.outPos ≤ L.decoded.length
  size : d.length + L.owed ≤ s.maxWindow
  limit : s.maxWindow = L.maxWin
  allow : s.allowTarget = L.allowTarget

theorem Between.track {L : Level} {p0 ws T : Bytes} (h : Between c ext s dict L (p0 ++ T))
    (hw : Windows c ext tol s dict p0 ws T) (ho : L.outPos ≤ L.decoded.length)
    (ha : s.allowTarget = false → L.planned = none → L.decoded = []) (r : Bytes) :
    Track c ext tol s dict p0 L r ws r T [] :=
  ⟨hw, ⟨L, h, by simp, fun _ => rfl, fun _ => ⟨rfl, rfl⟩, ha⟩, h.fits.inv, ho,
    by simp [Level.owed, h.fits.win], h.fits.window, h.fits.allow⟩

theorem WinResult.skip_setOut (x : WinResult) (p : Nat) : (x.setOut p).skip = x.skip.setOut p := by
  cases x with
  | endOfData L r =>
    simp only [WinResult.setOut, WinResult.skip, skipPair]
    have : (L.setOut p).win = L.win := rfl
    rw [this]
    cases L.win with
    | none => rfl
    | some w =>
      simp only
      have ht : (L.setOut p).table = L.table := rfl
      rw [ht]
      split <;> rfl
  | _ => rfl

theorem WinResult.skip_setUnparsed (x : WinResult) (p : Bytes) : (x.setUnparsed p).skip = x.skip.setUnparsed p := by
  cases x with
  | endOfData L r =>
    simp only [WinResult.setUnparsed, WinResult.skip, skipPair]
    have : (L.setUnparsed p).win = L.win := rfl
    rw [this]
    cases L.win with
    | none => rfl
    | some w =>
      simp only
      have ht : (L.setUnparsed p).table = L.table := rfl
      rw [ht]
      split <;> rfl
  | _ => rfl

variable {p0 : Bytes}

theorem Track.ended {L : Level} {r ws u T d : Bytes} (h : Track c ext tol s dict p0 L r ws u T d) (x : Bytes) :
    Track c ext tol s dict p0 (L.ended x) r ws u T d := by
  obtain ⟨Lc, h1, h2, h3, h4, h5⟩ := h.base
  refine ⟨h.windows, ⟨(Lc.setUnparsed x).setOut L.decoded.length, (h1.setUnparsed x).setOut _, h2, ?_, ?_, h5⟩,
    (h.inv.setUnparsed x).setOut _, Nat.le_refl _, h.size, h.limit, h.allow⟩
  · intro t
    unfold Level.ended
    rw [decodeWindow_setOut, decodeWindow_setOut, decodeWindow_setUnparsed, decodeWindow_setUnparsed,
      WinResult.skip_setOut, WinResult.skip_setOut, WinResult.skip_setUnparsed, WinResult.skip_setUnparsed, h3 t]
  · intro hw
    obtain ⟨e1, e2⟩ := h4 hw
    refine ⟨?_, e2⟩
    rw [← e1]
    rfl

theorem skip_eq_ok {x : WinResult} {L : Level} {r : Bytes} (h : x.skip = .ok L r) : x = .ok L r := by
  cases x with
  | ok L' r' => exact h
  | endOfData L' r' => simp [WinResult.skip] at h
  | error => simp [WinResult.skip] at h
  | fault f => simp [WinResult.skip] at h

theorem next_decoded {L : Level} (h : L.allowTarget = false) : L.next.1.decoded = [] := by
  simp [Level.next, h, Level.flush]

/-- One window. -/
theorem Track.window (htol : tol.dangling = true) (hex : tol.excess = true ∨ ext = false) {L L1 : Level}
    {r r1 ws u T d data : Bytes} (h : Track c ext tol s dict p0 L r ws u T d)
    (hd : decodeWindow L (r ++ data) = .ok L1 r1) :
    ∃ w T2, ws ++ w ++ r1 = ws ++ u ++ data ∧ Windows c ext tol s dict p0 (ws ++ w) (T ++ T2) ∧
      WindowCode c ext tol s dict (p0 ++ T) w T2 ∧
      Between c ext s dict L1 (p0 ++ (T ++ T2)) ∧ L1.outPos ≤ L1.decoded.length ∧
      ∀ x, x ++ L.text = T ++ d → x ++ L1.text = T ++ T2 := by
  obtain ⟨Lc, b1, b2, b3, b4, b5⟩ := h.base
  obtain ⟨i1, i2, _, dd, i4, i5, _⟩ := decodeWindow_ok h.inv hd
  have hdc : decodeWindow Lc (u ++ data) = .ok L1 r1 := by
    have := b3 data
    rw [hd] at this
    exact skip_eq_ok this.symm
  obtain ⟨w, T2, e1, e2, e3, e4, e5⟩ := b1.sound htol
    (by rcases hex with hex | hex
        · exact Or.inl hex
        · exact Or.inr (Or.inr hex)) hdc
  have hT : d ++ dd = T2 := by
    have : Lc.decoded ++ (d ++ dd) = Lc.decoded ++ T2 := by rw [← e4, i4, b2]; simp
    exact List.append_cancel_left this
  have hws := h.windows.snoc e2
  refine ⟨w, T2, by rw [List.append_assoc, List.append_assoc, e1], hws, e2, ?_, i1.out h.out, ?_⟩
  · rw [← List.append_assoc]; exact e3
  · intro x hx
    have htext : L1.text = L.text ++ dd := by
      simp only [Level.text, i4, i5]
      rw [List.drop_append_of_le_length h.out]
    rw [htext, ← List.append_assoc, hx, ← hT]
    simp

/-- The last of the windows `ws` is the one with which `p` bytes of target are complete. -/
def LastWindow (c : Coding) (ext : Bool) (tol : Tolerance) (s : Settings) (dict p0 : Bytes) (p : Nat) (ws T : Bytes) : Prop :=
  ∃ ws1 w T1 T2, ws = ws1 ++ w ∧ T = T1 ++ T2 ∧ (p0 ++ T1).length < p ∧ Windows c ext tol s dict p0 ws1 T1 ∧
    WindowCode c ext tol s dict (p0 ++ T1) w T2

/-- An incomplete window. -/
theorem Track.eod {L L1 : Level} {r r1 ws u T d data : Bytes} (h : Track c ext tol s dict p0 L r ws u T d)
    (hd : decodeWindow L (r ++ data) = .endOfData L1 r1) :
    ∃ dd, Track c ext tol s dict p0 L1 r1 ws (u ++ data) T (d ++ dd) ∧ L1.text = L.text ++ dd := by
  obtain ⟨Lc, b1, b2, b3, b4, b5⟩ := h.base
  obtain ⟨i1, _, _, dd, i4, i5, i6⟩ := decodeWindow_eod h.inv hd
  have hst := static_fields i1.stat
  refine ⟨dd, ⟨h.windows, ⟨Lc, b1, ?_, ?_, ?_, ?_⟩, i1.inv, i1.out h.out, ?_,
    h.limit.trans hst.maxWin.symm, h.allow.trans hst.allowTarget.symm⟩, ?_⟩
  · rw [i4, b2]; simp
  · intro t
    rw [← ((decodeWindow_extend h.inv (r ++ data) t).2.2.2 _ _ hd).1, List.append_assoc, List.append_assoc]
    exact b3 _
  · intro hw
    rcases (decodeWindow_inv h.inv (r ++ data)).2.1 _ _ hd with ⟨j1, j2, j3⟩ | ⟨_, _, ⟨_, _, _, _, _, _, j2, _⟩, _⟩
    · obtain ⟨k1, k2⟩ := b4 j1
      exact ⟨by rw [j2]; exact k1, by rw [k2, j3]⟩
    · rw [j2] at hw
      simp [Level.after] at hw
  · intro ha hp
    exact b5 ha (by rw [← hst.planned]; exact hp)
  · rw [List.length_append]
    have hsz := h.size
    rcases (decodeWindow_inv h.inv (r ++ data)).2.1 _ _ hd with ⟨j1, j2, j3⟩ | ⟨_, _, _, j2, j3⟩
    · rw [j2] at i6 ⊢
      omega
    · cases hw : L.win with
      | none =>
        obtain ⟨hdr, rest, k1, k2, _⟩ := j2 hw
        have hwe := (wouldExceed_false (readHeader_ok k1).2.2.2.2.2.1).1
        have h0 : L.owed = 0 := by simp [Level.owed, hw]
        obtain ⟨k3, _⟩ := b4 hw
        have hd0 : d.length = 0 := by
          have := congrArg List.length b2
          rw [k3, List.length_append] at this
          omega
        have hl := h.limit
        omega
      | some w =>
        have := (j3 w hw).1
        omega
  · simp only [Level.text, i4, i5]
    rw [List.drop_append_of_le_length h.out]

theorem Track.run (htol : tol.dangling = true) (hex : tol.excess = true ∨ ext = false) {L : Level}
    {r ws u T d data : Bytes} (h : Track c ext tol s dict p0 L r ws u T d)
    (hpl : ∀ p, L.planned = some p → (p0 ++ T).length < p) :
    (∀ L' r' o, winRun L (r ++ data) = .done L' r' o →
      ∃ ws' u' T' d', ws' ++ u' = ws ++ u ++ data ∧ Track c ext tol s dict p0 L' r' ws' u' T' d' ∧
      (∀ x, x ++ L.text = T ++ d → x ++ o ++ L'.text = T' ++ d') ∧
      ∀ p, L.planned = some p → (p0 ++ T').length < p ∨ LastWindow c ext tol s dict p0 p ws' T') ∧
    (∀ o, winRun L (r ++ data) = .error o → L.text = [] → L.planned = none →
      ∃ ws' u' T' d', ws' ++ u' = ws ++ u ++ data ∧ Windows c ext tol s dict p0 ws' T' ∧ d'.length ≤ s.maxWindow ∧
      ∀ x, x = T ++ d → x ++ o = T' ++ d') := by
  induction hn : (r ++ data).length using Nat.strongRecOn generalizing L r ws u T d data with
  | _ n ih =>
    have hrun := winRun_eq h.inv (r ++ data)
    by_cases hs : r ++ data = []
    · rw [if_pos hs] at hrun
      refine ⟨?_, by rw [hrun]; simp⟩
      intro L' r' o hr
      rw [hrun] at hr
      simp only [WindowsResult.done.injEq] at hr
      obtain ⟨rfl, rfl, rfl⟩ := hr
      have h0 : r = [] ∧ data = [] := by simpa using hs
      obtain ⟨rfl, rfl⟩ := h0
      exact ⟨ws, u, T, d, by simp, h, by simp, fun p hp => Or.inl (hpl p hp)⟩
    rw [if_neg hs] at hrun
    obtain ⟨Lc, b1, b2, b3, b4, b5⟩ := h.base
    cases hd : decodeWindow L (r ++ data) with
    | fault f => rw [hd] at hrun; rw [hrun]; simp
    | error =>
      rw [hd] at hrun
      rw [hrun]
      refine ⟨by simp, ?_⟩
      intro o hr _ _
      simp only [WindowsResult.error.injEq] at hr
      subst hr
      exact ⟨ws, u ++ data, T, d, by simp, h.windows, by have := h.size; omega, by simp⟩
    | endOfData L1 r1 =>
      rw [hd] at hrun
      refine ⟨?_, by rw [hrun]; simp⟩
      intro L' r' o hr
      rw [hrun] at hr
      simp only [WindowsResult.done.injEq] at hr
      obtain ⟨rfl, rfl, rfl⟩ := hr
      obtain ⟨dd, k1, k2⟩ := h.eod hd
      refine ⟨ws, u ++ data, T, d ++ dd, by simp, k1, ?_, fun p hp => Or.inl (hpl p hp)⟩
      intro x hx
      rw [k2, List.append_nil, ← List.append_assoc, hx]
      simp
    | ok L1 r1 =>
      rw [hd] at hrun
      simp only at hrun
      obtain ⟨i1, i2, ⟨pre, hp1, hp2⟩, _⟩ := decodeWindow_ok h.inv hd
      obtain ⟨w, T2, e1, e2, e2', e3, e4, e5⟩ := h.window htol hex hd
      have hst := static_fields i1.stat
      split at hrun
      · rename_i hrp
        refine ⟨?_, by rw [hrun]; simp⟩
        intro L' r' o hr
        rw [hrun] at hr
        simp only [WindowsResult.done.injEq] at hr
        obtain ⟨rfl, rfl, rfl⟩ := hr
        refine ⟨ws ++ w, r1, T ++ T2, [], e1, e3.track e2 e4 (fun _ hx => ?_) r1, ?_,
          fun p hp => Or.inr ⟨ws, w, T, T2, rfl, rfl, hpl p hp, h.windows, e2'⟩⟩
        · simp [Level.reachedPlanned, hx] at hrp
        · intro x hx
          rw [List.append_nil, List.append_nil]
          exact e5 x hx
      · rename_i hnr
        have hnx := StepInv.next i1.inv i2
        have hpl' : ∀ p, L1.next.1.planned = some p → (p0 ++ (T ++ T2)).length < p := by
          intro p hp
          rw [(static_fields hnx.stat).planned] at hp
          have h1 := e3.fits.total
          have h2 := e3.fits.le
          have h3 : L1.total ≠ p := by
            intro hx
            apply hnr
            simp [Level.reachedPlanned, hp, hx]
          have h4 : L1.cap ≤ p := by
            simp only [Level.cap, hp]
            exact Nat.min_le_left _ _
          omega
        have hlt : (r1 ++ []).length < n := by
          have := List.length_pos_iff.2 (hp2 hs)
          rw [← hn, hp1, List.append_nil, List.length_append]
          omega
        have hal : s.allowTarget = false → L1.allowTarget = false := fun ha => by
          rw [hst.allowTarget, ← h.allow]; exact ha
        obtain ⟨ih1, ih2⟩ := ih _ hlt (e3.next.track e2 (hnx.out e4) (fun ha _ => next_decoded (hal ha)) r1)
          (data := []) hpl' rfl
        rw [List.append_nil] at ih1 ih2
        rw [hrun]
        constructor
        · intro L' r' o hr
          cases hw2 : winRun L1.next.1 r1 with
          | fault f => simp [hw2, WindowsResult.prepend] at hr
          | error o' => simp [hw2, WindowsResult.prepend] at hr
          | done L2 r2 o2 =>
            simp only [hw2, WindowsResult.prepend, WindowsResult.done.injEq] at hr
            obtain ⟨rfl, rfl, rfl⟩ := hr
            obtain ⟨ws', u', T', d', k1, k2, k3, k4⟩ := ih1 _ _ _ hw2
            refine ⟨ws', u', T', d', by rw [k1, List.append_nil, e1], k2, ?_, fun p hp => k4 p (by
              rw [(static_fields hnx.stat).planned, hst.planned]; exact hp)⟩
            intro x hx
            have := k3 (x ++ L1.next.2) (by
              rw [List.append_assoc, next_text, List.append_nil]
              exact e5 x hx)
            rw [← List.append_assoc]
            exact this
        · intro o hr htx hpl
          cases hw2 : winRun L1.next.1 r1 with
          | fault f => simp [hw2, WindowsResult.prepend] at hr
          | done L2 r2 o2 => simp [hw2, WindowsResult.prepend] at hr
          | error o2 =>
            simp only [hw2, WindowsResult.prepend, WindowsResult.error.injEq] at hr
            subst hr
            cases ha : L1.allowTarget with
            | true =>
              -- nothing is output
              have ho2 := ((winRun_inv hnx.inv (hnx.out e4) r1).2.1 _ hw2).2
                ((static_fields hnx.stat).allowTarget.trans ha)
              refine ⟨ws, u ++ data, T, d, by simp, h.windows, by have := h.size; omega, ?_⟩
              intro x hx
              have : L1.next.2 = [] := by simp [Level.next, ha]
              rw [this, ho2]
              simpa using hx
            | false =>
              have hf : L1.next = L1.flush := by simp [Level.next, ha]
              obtain ⟨ws', u', T', d', k1, k2, k2', k3⟩ := ih2 _ hw2 (by rw [hf]; simp [Level.flush, Level.text])
                (by rw [(static_fields hnx.stat).planned, hst.planned]; exact hpl)
              refine ⟨ws', u', T', d', by rw [k1, List.append_nil, e1], k2, k2', ?_⟩
              intro x hx
              rw [← List.append_assoc]
              refine k3 _ ?_
              rw [List.append_nil]
              have hfl : L1.next.2 = L1.text := by rw [hf]; rfl
              rw [hfl]
              exact e5 x (by rw [htx, List.append_nil]; exact hx)

/-- A chunk of windows. -/
theorem Track.chunk (htol : tol.dangling = true) (hex : tol.excess = true ∨ ext = false) {L : Level}
    {r ws u T p data : Bytes} (h : Track c ext tol s dict p0 L r ws u T p) (htx : L.text = [])
    (hpl : ∀ q, L.planned = some q → (p0 ++ T).length < q) :
    (∀ L' ns o, decodeChunkWindows L (r ++ data) = .ok L' ns o → ns = [] ∧
      ∃ ws' u' T' p', ws' ++ u' = ws ++ u ++ data ∧ Track c ext tol s dict p0 L' L'.unparsed ws' u' T' p' ∧
        T ++ p ++ o = T' ++ p' ∧
        ∀ q, L.planned = some q → (p0 ++ T').length < q ∨ LastWindow c ext tol s dict p0 q ws' T') ∧
    (∀ L' o, decodeChunkWindows L (r ++ data) = .error L' o → L.planned = none →
      ∃ ws' u' T' p', ws' ++ u' = ws ++ u ++ data ∧ Windows c ext tol s dict p0 ws' T' ∧ p'.length ≤ s.maxWindow ∧
        T ++ p ++ o = T' ++ p') := by
  obtain ⟨h1, h2⟩ := h.run htol hex (data := data) hpl
  rw [decodeChunkWindows_eq]
  cases hw : winRun L (r ++ data) with
  | fault f => simp
  | error o' =>
    refine ⟨by simp, ?_⟩
    intro L' o hr hp
    simp only [ChunkResult.error.injEq] at hr
    obtain ⟨rfl, rfl⟩ := hr
    obtain ⟨ws', u', T', p', k1, k2, k3, k4⟩ := h2 _ hw htx hp
    exact ⟨ws', u', T', p', k1, k2, k3, k4 _ rfl⟩
  | done L' r' o' =>
    refine ⟨?_, by simp⟩
    intro L'' ns o hr
    simp only [ChunkResult.ok.injEq] at hr
    obtain ⟨rfl, rfl, rfl⟩ := hr
    obtain ⟨ws', u', T', p', k1, k2, k3, k4⟩ := h1 _ _ _ hw
    refine ⟨rfl, ws', u', T', p', k1, k2.ended r', ?_, k4⟩
    rw [← List.append_assoc]
    exact k3 _ (by rw [htx, List.append_nil])

end Vcd
