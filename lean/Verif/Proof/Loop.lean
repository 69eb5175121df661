import Verif.Proof.DecWindow

/-!
# The loop over windows in `DecodeChunk`
-/

namespace Vcd
open Spec

/-- More text in front of the output. -/
def WindowsResult.prepend (o : Bytes) : WindowsResult → WindowsResult
  | .done L r out => .done L r (o ++ out)
  | .error out => .error (o ++ out)
  | .fault f => .fault f

@[simp] theorem WindowsResult.prepend_nil (r : WindowsResult) : r.prepend [] = r := by
  cases r <;> rfl

theorem WindowsResult.prepend_prepend (a b : Bytes) (r : WindowsResult) :
    (r.prepend b).prepend a = r.prepend (a ++ b) := by
  cases r <;> simp [prepend]

/-- What happens after a window has been decoded and the loop goes on. -/
def Level.next (L : Level) : Level × Bytes := if L.allowTarget then (L, []) else L.flush

/-- The loop without its bound. -/
def winRun (L : Level) (s : Bytes) : WindowsResult := windowLoop (s.length + 2) L s []

theorem windowLoop_out (fuel : Nat) (L : Level) (s out : Bytes) :
    windowLoop fuel L s out = (windowLoop fuel L s []).prepend out := by
  induction fuel generalizing L s out with
  | zero => rfl
  | succ fuel ih =>
    unfold windowLoop
    split
    · simp [WindowsResult.prepend]
    · cases decodeWindow L s with
      | fault f => rfl
      | error => simp [WindowsResult.prepend]
      | endOfData L' r => simp [WindowsResult.prepend]
      | ok L' r =>
        simp only
        split
        · simp [WindowsResult.prepend]
        · split
          · rw [ih, ih _ _ ([] ++ _), WindowsResult.prepend_prepend]; simp
          · rw [ih]

theorem LevelInv.flush {L : Level} (h : LevelInv L) (hw : L.win = none) : LevelInv L.flush.1 :=
  ⟨fun _ => rfl, fun w h' => by simp [Level.flush, hw] at h', h.cache⟩

theorem LevelInv.next {L : Level} (h : LevelInv L) (hw : L.win = none) : LevelInv L.next.1 := by
  unfold Level.next
  split
  · exact h
  · exact h.flush hw

theorem windowLoop_succ (fuel : Nat) (L : Level) (s : Bytes) :
    windowLoop (fuel + 1) L s [] =
      if s = [] then .done L s []
      else
        match decodeWindow L s with
        | .fault f => .fault f
        | .error => .error []
        | .endOfData L' rest => .done L' rest []
        | .ok L' rest =>
          if L'.reachedPlanned then .done L' rest []
          else (windowLoop fuel L'.next.1 rest []).prepend L'.next.2 := by
  rw [windowLoop]
  split
  · rfl
  · cases decodeWindow L s with
    | fault f => rfl
    | error => rfl
    | endOfData L' r => rfl
    | ok L' r =>
      simp only
      split
      · rfl
      · unfold Level.next
        by_cases ha : L'.allowTarget = true
        · simp [ha]
        · simp only [ha]
          rw [windowLoop_out]
          simp

theorem windowLoop_fuel {L : Level} (hL : LevelInv L) {s : Bytes} {f g : Nat} (hf : s.length < f)
    (hg : s.length < g) : windowLoop f L s [] = windowLoop g L s [] := by
  induction f generalizing L s g with
  | zero => omega
  | succ f ih =>
    cases g with
    | zero => omega
    | succ g =>
      rw [windowLoop_succ, windowLoop_succ]
      split
      · rfl
      · rename_i hs
        cases hd : decodeWindow L s with
        | fault f => rfl
        | error => rfl
        | endOfData L' r => rfl
        | ok L' r =>
          obtain ⟨i1, i2, ⟨pre, hpre, hne⟩, _⟩ := (decodeWindow_inv hL s).1 _ _ hd
          simp only
          split
          · rfl
          · have hlt : r.length < s.length := by
              have := List.length_pos_iff.2 (hne hs)
              rw [hpre, List.length_append]
              omega
            rw [ih (i1.next i2) (g := g) (by omega) (by omega)]

theorem winRun_eq {L : Level} (hL : LevelInv L) (s : Bytes) :
    winRun L s =
      if s = [] then .done L s []
      else
        match decodeWindow L s with
        | .fault f => .fault f
        | .error => .error []
        | .endOfData L' rest => .done L' rest []
        | .ok L' rest =>
          if L'.reachedPlanned then .done L' rest []
          else (winRun L'.next.1 rest).prepend L'.next.2 := by
  unfold winRun
  rw [windowLoop_succ]
  split
  · rfl
  · rename_i hs
    cases hd : decodeWindow L s with
    | fault f => rfl
    | error => rfl
    | endOfData L' r => rfl
    | ok L' r =>
      obtain ⟨i1, i2, ⟨pre, hpre, hne⟩, _⟩ := (decodeWindow_inv hL s).1 _ _ hd
      have hlt : r.length < s.length := by
        have := List.length_pos_iff.2 (hne hs)
        rw [hpre, List.length_append]
        omega
      simp only
      rw [windowLoop_fuel (i1.next i2) (f := s.length + 1) (g := r.length + 2) (by omega) (by omega)]

/-- The members the loop over windows does not change. -/
def Level.static (L : Level) : Level :=
  { L with cache := none, decoded := [], outPos := 0, startPos := 0, win := none, total := 0 }

/-- The components of `static`. -/
structure SameStatic (L L' : Level) : Prop where
  table : L'.table = L.table
  started : L'.started = L.started
  dict : L'.dict = L.dict
  version : L'.version = L.version
  planned : L'.planned = L.planned
  maxFile : L'.maxFile = L.maxFile
  maxWin : L'.maxWin = L.maxWin
  allowTarget : L'.allowTarget = L.allowTarget
  unparsed : L'.unparsed = L.unparsed
  tableString : L'.tableString = L.tableString

theorem static_fields {L L' : Level} (h : L'.static = L.static) : SameStatic L L' := by
  simp only [Level.static, Level.mk.injEq] at h
  exact ⟨h.1, h.2.1, h.2.2.1, h.2.2.2.1, h.2.2.2.2.1, h.2.2.2.2.2.1, h.2.2.2.2.2.2.1, h.2.2.2.2.2.2.2.2.2.1,
    h.2.2.2.2.2.2.2.2.2.2.1, h.2.2.2.2.2.2.2.2.2.2.2.2.2.2.2⟩

/-- Text decoded and not yet handed out. -/
def Level.text (L : Level) : Bytes := L.decoded.drop L.outPos

/-- Nothing more to do with the bytes `r` until more arrive. -/
def Level.Idle (L : Level) (r : Bytes) : Prop :=
  r = [] ∨ decodeWindow L r = .endOfData L r

theorem next_static (L : Level) : L.next.1.static = L.static := by
  unfold Level.next; split <;> rfl

/-- Flushing moves text to the output. -/
theorem next_text (L : Level) : L.next.2 ++ L.next.1.text = L.text := by
  unfold Level.next
  split
  · simp
  · simp [Level.flush, Level.text]

theorem next_owed {L : Level} (h : L.win = none) : L.next.1.owed = 0 := by
  have hw : L.next.1.win = none := by unfold Level.next; split <;> simp [Level.flush, h]
  simp [Level.owed, hw]

theorem next_fields (L : Level) : L.next.1.total = L.total ∧ L.next.1.cache = L.cache ∧
    L.next.1.win = L.win ∧ (L.outPos ≤ L.decoded.length → L.next.1.outPos ≤ L.next.1.decoded.length) := by
  unfold Level.next
  split <;> simp [Level.flush]

/-- Windows respect the size limits. -/
theorem wouldExceed_false {L : Level} {n : Nat} (h : L.wouldExceed n = false) :
    n ≤ L.maxWin ∧ (∀ p, L.planned = some p → L.total ≤ p → L.total + n ≤ p) ∧
      (L.total ≤ L.maxFile → L.total + n ≤ L.maxFile) := by
  simp only [Level.wouldExceed, Bool.or_eq_false_iff, decide_eq_false_iff_not, Nat.not_lt, gt_iff_lt] at h
  obtain ⟨⟨h1, h2⟩, h3⟩ := h
  refine ⟨h1, ?_, ?_⟩
  · intro p hp hle
    rw [hp] at h2
    simp only [decide_eq_false_iff_not, Nat.not_lt] at h2
    rw [szSub_eq hle] at h2
    omega
  · intro hle
    rw [szSub_eq hle] at h3
    omega

/-- One result of `DecodeWindow` in terms of text and totals. -/
structure StepInv (L L' : Level) : Prop where
  inv : LevelInv L'
  stat : L'.static = L.static
  out : L.outPos ≤ L.decoded.length → L'.outPos ≤ L'.decoded.length
  near : ∀ c, L.cache = some c → ∃ c', L'.cache = some c' ∧ c'.nearSize = c.nearSize
  file : L.total ≤ L.maxFile → L'.total ≤ L'.maxFile
  plan : ∀ p, L.planned = some p → L.total ≤ p → L'.total ≤ p

theorem StepInv.refl {L : Level} (h : LevelInv L) : StepInv L L :=
  ⟨h, rfl, id, fun c hc => ⟨c, hc, rfl⟩, id, fun _ _ => id⟩

theorem StepInv.trans {L L' L'' : Level} (h : StepInv L L') (h' : StepInv L' L'') : StepInv L L'' where
  inv := h'.inv
  stat := h'.stat.trans h.stat
  out := fun x => h'.out (h.out x)
  near := fun c hc => by
    obtain ⟨c', h1, h2⟩ := h.near c hc
    obtain ⟨c'', h3, h4⟩ := h'.near c' h1
    exact ⟨c'', h3, h4.trans h2⟩
  file := fun x => h'.file (h.file x)
  plan := fun p hp x => h'.plan p (by rw [← hp]; exact (static_fields h.stat).planned) (h.plan p hp x)

theorem StepInv.next {L : Level} (h : LevelInv L) (hw : L.win = none) : StepInv L L.next.1 := by
  obtain ⟨n1, n2, n3, n4⟩ := next_fields L
  have hm : L.next.1.maxFile = L.maxFile := (static_fields (next_static L)).maxFile
  exact ⟨h.next hw, next_static L, n4, fun c hc => ⟨c, by rw [n2, hc], rfl⟩, by rw [n1, hm]; exact id,
    by intro p _; rw [n1]; exact id⟩

theorem decodeWindow_ok {L : Level} (hL : LevelInv L) {s r : Bytes} {L' : Level}
    (h : decodeWindow L s = .ok L' r) :
    StepInv L L' ∧ L'.win = none ∧ (∃ pre, s = pre ++ r ∧ (s ≠ [] → pre ≠ [])) ∧
    ∃ d, L'.decoded = L.decoded ++ d ∧ L'.outPos = L.outPos ∧ L'.total + L.owed = L.total + d.length := by
  obtain ⟨i1, i2, i3, ⟨c, d, tot, hc, hL', htot, hnear⟩, hn, ho⟩ := (decodeWindow_inv hL s).1 _ _ h
  have hlim : ∃ n, L'.total = L.total + n ∧ (n = 0 ∨ L.wouldExceed n = false) := by
    cases hw : L.win with
    | none =>
      obtain ⟨hdr, rest, hr, ht⟩ := hn hw
      exact ⟨_, ht, Or.inr (readHeader_ok hr).2.2.2.2.2.1⟩
    | some w => exact ⟨0, by rw [ho w hw]; rfl, Or.inl rfl⟩
  obtain ⟨n, hn1, hn2⟩ := hlim
  have hmf : L'.maxFile = L.maxFile := by rw [hL']; rfl
  refine ⟨⟨i1, by rw [hL']; rfl, ?_, ?_, ?_, ?_⟩, i2, i3, d, ?_⟩
  · intro hle
    rw [hL']
    simp only [Level.after, List.length_append]
    omega
  · intro c0 hc0
    exact ⟨c, by rw [hL']; rfl, hnear c0 hc0⟩
  · intro hle
    rw [hmf, hn1]
    rcases hn2 with rfl | hn2
    · exact hle
    · exact (wouldExceed_false hn2).2.2 hle
  · intro p hp hle
    rw [hn1]
    rcases hn2 with rfl | hn2
    · exact hle
    · exact (wouldExceed_false hn2).2.1 p hp hle
  · subst hL'
    exact ⟨rfl, rfl, htot⟩

theorem decodeWindow_eod {L : Level} (hL : LevelInv L) {s r : Bytes} {L' : Level}
    (h : decodeWindow L s = .endOfData L' r) :
    StepInv L L' ∧ (∃ pre, s = pre ++ r) ∧ decodeWindow L' r = .endOfData L' r ∧
    (∃ d, L'.decoded = L.decoded ++ d ∧ L'.outPos = L.outPos ∧
      L'.total + L.owed = L.total + L'.owed + d.length) := by
  have hidem := ((decodeWindow_extend hL s []).2.2.2 _ _ h).2.1
  rcases (decodeWindow_inv hL s).2.1 _ _ h with ⟨h1, rfl, rfl⟩ | ⟨i1, i2, ⟨c, d, w, sp, tot, hc, hL', htot, hnear, _⟩, hn, ho⟩
  · exact ⟨StepInv.refl hL, ⟨[], rfl⟩, hidem, [], by simp⟩
  have hlim : ∃ n, L'.total = L.total + n ∧ (n = 0 ∨ L.wouldExceed n = false) := by
    cases hw : L.win with
    | none =>
      obtain ⟨hdr, rest, hr, ht, _⟩ := hn hw
      exact ⟨_, ht, Or.inr (readHeader_ok hr).2.2.2.2.2.1⟩
    | some w => exact ⟨0, by rw [(ho w hw).1]; rfl, Or.inl rfl⟩
  obtain ⟨n, hn1, hn2⟩ := hlim
  have hmf : L'.maxFile = L.maxFile := by rw [hL']; rfl
  have hdec : L'.decoded = L.decoded ++ d := by rw [hL']; rfl
  refine ⟨⟨i1, by rw [hL']; rfl, ?_, ?_, ?_, ?_⟩, i2, hidem, d, hdec, by rw [hL']; rfl, ?_⟩
  · intro hle
    rw [hL']
    simp only [Level.after, List.length_append]
    omega
  · intro c0 hc0
    exact ⟨c, by rw [hL']; rfl, hnear c0 hc0⟩
  · intro hle
    rw [hmf, hn1]
    rcases hn2 with rfl | hn2
    · exact hle
    · exact (wouldExceed_false hn2).2.2 hle
  · intro p hp hle
    rw [hn1]
    rcases hn2 with rfl | hn2
    · exact hle
    · exact (wouldExceed_false hn2).2.1 p hp hle
  · have ht : L'.total = tot := by rw [hL']; rfl
    rw [hdec, List.length_append] at htot
    omega

/-- The outcomes of the loop over windows. -/
theorem winRun_inv {L : Level} (hL : LevelInv L) (hp : L.outPos ≤ L.decoded.length) (s : Bytes) :
    (∀ L' r out, winRun L s = .done L' r out → StepInv L L' ∧ (∃ pre, s = pre ++ r) ∧
      (L'.Idle r ∨ (L'.reachedPlanned = true ∧ L'.win = none)) ∧
      (∃ d, out ++ L'.text = L.text ++ d ∧ L'.total + L.owed = L.total + L'.owed + d.length) ∧
      (L.allowTarget = true → out = [] ∧ L'.outPos = L.outPos ∧ ∃ d, L'.decoded = L.decoded ++ d)) ∧
    (∀ out, winRun L s = .error out →
      (∃ d L', LevelInv L' ∧ StepInv L L' ∧ out ++ L'.text = L.text ++ d ∧ L'.total + L.owed = L.total + L'.owed + d.length) ∧
      (L.allowTarget = true → out = [])) ∧
    (∀ f, winRun L s = .fault f → f = .nearOverflow ∨
      (f = .cacheOob ∧ ∃ c, L.cache = some c ∧ c.nearSize = 254)) := by
  induction hn : s.length using Nat.strongRecOn generalizing L s with
  | _ n ih =>
    rw [winRun_eq hL]
    by_cases hs : s = []
    · subst hs
      simp only [if_true]
      refine ⟨?_, by simp, by simp⟩
      intro L' r out h
      simp only [WindowsResult.done.injEq] at h
      obtain ⟨rfl, rfl, rfl⟩ := h
      exact ⟨StepInv.refl hL, ⟨[], rfl⟩, Or.inl (Or.inl rfl), ⟨[], by simp⟩, fun _ => ⟨rfl, rfl, [], by simp⟩⟩
    rw [if_neg hs]
    cases hd : decodeWindow L s with
    | fault f =>
      refine ⟨by simp, by simp, ?_⟩
      intro f' h
      simp only [WindowsResult.fault.injEq] at h
      subst h
      exact (decodeWindow_inv hL s).2.2 _ hd
    | error =>
      refine ⟨by simp, ?_, by simp⟩
      intro out h
      simp only [WindowsResult.error.injEq] at h
      subst h
      exact ⟨⟨[], L, hL, StepInv.refl hL, by simp⟩, fun _ => rfl⟩
    | endOfData L' r =>
      obtain ⟨i1, i2, i3, d, i4, i5, i6⟩ := decodeWindow_eod hL hd
      refine ⟨?_, by simp, by simp⟩
      intro L'' r' out h
      simp only [WindowsResult.done.injEq] at h
      obtain ⟨rfl, rfl, rfl⟩ := h
      refine ⟨i1, i2, Or.inl (Or.inr i3), ⟨d, ?_, by omega⟩, fun _ => ⟨rfl, i5, d, i4⟩⟩
      simp only [Level.text, i4, i5, List.nil_append]
      rw [List.drop_append_of_le_length hp]
    | ok L' r =>
      obtain ⟨i1, i2, ⟨pre, hpre, hne⟩, d, i4, i5, i6⟩ := decodeWindow_ok hL hd
      have htext : L'.text = L.text ++ d := by
        simp only [Level.text, i4, i5]
        rw [List.drop_append_of_le_length hp]
      have how : L'.owed = 0 := by simp [Level.owed, i2]
      simp only
      split
      · rename_i hpl
        refine ⟨?_, by simp, by simp⟩
        intro L'' r' out h
        simp only [WindowsResult.done.injEq] at h
        obtain ⟨rfl, rfl, rfl⟩ := h
        exact ⟨i1, ⟨pre, hpre⟩, Or.inr ⟨hpl, i2⟩, ⟨d, by simpa using htext, by omega⟩,
          fun _ => ⟨rfl, i5, d, i4⟩⟩
      · have hlt : r.length < n := by
          have := List.length_pos_iff.2 (hne hs)
          rw [← hn, hpre, List.length_append]
          omega
        have hnx := StepInv.next i1.inv i2
        have hstep := i1.trans hnx
        obtain ⟨j1, j2, j3⟩ := ih _ hlt hnx.inv (hnx.out (i1.out hp)) r rfl
        have hnt := next_text L'
        have hno := next_owed i2
        have hntot := (next_fields L').1
        have hal : L.allowTarget = true → L'.next = (L', []) := by
          intro ha
          have : L'.allowTarget = L.allowTarget := (static_fields i1.stat).allowTarget
          simp [Level.next, this, ha]
        have hal' : L'.next.1.allowTarget = L.allowTarget := (static_fields hstep.stat).allowTarget
        refine ⟨?_, ?_, ?_⟩
        · intro L'' r' out h
          cases hw : winRun L'.next.1 r with
          | error o => simp [hw, WindowsResult.prepend] at h
          | fault f => simp [hw, WindowsResult.prepend] at h
          | done L2 r2 o2 =>
            simp only [hw, WindowsResult.prepend, WindowsResult.done.injEq] at h
            obtain ⟨rfl, rfl, rfl⟩ := h
            obtain ⟨k1, ⟨pre2, k2⟩, k3, ⟨d2, k4, k5⟩, k6⟩ := j1 _ _ _ hw
            refine ⟨hstep.trans k1, ⟨pre ++ pre2, by rw [hpre, k2]; simp⟩, k3, ⟨d ++ d2, ?_, ?_⟩, ?_⟩
            · rw [List.append_assoc, k4, ← List.append_assoc, hnt, htext]; simp
            · rw [List.length_append]; omega
            · intro ha
              have hx := hal ha
              obtain ⟨m1, m2, d3, m3⟩ := k6 (hal'.trans ha)
              rw [hx] at m2 m3
              refine ⟨by rw [hx, m1]; rfl, m2.trans i5, d ++ d3, ?_⟩
              rw [m3, i4]; simp
        · intro out h
          cases hw : winRun L'.next.1 r with
          | done L2 r2 o2 => simp [hw, WindowsResult.prepend] at h
          | fault f => simp [hw, WindowsResult.prepend] at h
          | error o2 =>
            simp only [hw, WindowsResult.prepend, WindowsResult.error.injEq] at h
            subst h
            obtain ⟨⟨d2, L2, k1, k1', k2, k3⟩, k4⟩ := j2 _ hw
            refine ⟨⟨d ++ d2, L2, k1, hstep.trans k1', ?_, ?_⟩, ?_⟩
            · rw [List.append_assoc, k2, ← List.append_assoc, hnt, htext]; simp
            · rw [List.length_append]; omega
            · intro ha
              rw [hal ha, k4 (hal'.trans ha)]; rfl
        · intro f h
          cases hw : winRun L'.next.1 r with
          | done L2 r2 o2 => simp [hw, WindowsResult.prepend] at h
          | error o2 => simp [hw, WindowsResult.prepend] at h
          | fault f2 =>
            simp only [hw, WindowsResult.prepend, WindowsResult.fault.injEq] at h
            subst h
            rcases j3 _ hw with h | ⟨h, c, hc, hc2⟩
            · exact Or.inl h
            · refine Or.inr ⟨h, ?_⟩
              cases hc0 : L.cache with
              | none =>
                cases hwn : L.win with
                | none =>
                  rw [decodeWindow_none hwn, hc0] at hd
                  cases hrr : readHeader L s <;> simp [hrr] at hd
                | some w =>
                  obtain ⟨_, _, c', _, _, hc', _⟩ := hL.opened w hwn
                  rw [hc0] at hc'
                  simp at hc'
              | some c0 =>
                obtain ⟨c', e1, e2⟩ := hstep.near c0 hc0
                rw [hc] at e1
                simp only [Option.some.injEq] at e1
                subst e1
                exact ⟨c0, rfl, by rw [← e2]; exact hc2⟩

end Vcd
