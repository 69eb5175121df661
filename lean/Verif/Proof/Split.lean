import Verif.Proof.Eqv

/-!
# The loop over windows when the input arrives in two pieces
-/

namespace Vcd
open Spec

/-- Unfolding without a special case for empty input. -/
theorem winRun_eq' {L : Level} (hL : LevelInv L) (hq : L.Quiet) (s : Bytes) :
    winRun L s =
      match decodeWindow L s with
      | .fault f => .fault f
      | .error => .error []
      | .endOfData L' rest => .done L' rest []
      | .ok L' rest =>
        if L'.reachedPlanned then .done L' rest []
        else (winRun L'.next.1 rest).prepend L'.next.2 := by
  rw [winRun_eq hL]
  split
  · rename_i hs
    subst hs
    rw [hq]
  · rfl

theorem next_quiet {L : Level} (h : L.win = none) : L.next.1.Quiet :=
  quiet_closed (by rw [(next_fields L).2.2.1, h])

/-- Results of the loop that differ at most in skipped NOOPs. -/
inductive WindowsResult.Eqv : WindowsResult → WindowsResult → Prop
  | fault (f : Fault) : Eqv (.fault f) (.fault f)
  | error (o : Bytes) : Eqv (.error o) (.error o)
  | done {L L' : Level} {r r' : Bytes} (o : Bytes) (h : WinEqv L r L' r') :
      Eqv (.done L r o) (.done L' r' o)

theorem WindowsResult.Eqv.refl (x : WindowsResult) : x.Eqv x := by
  cases x
  · exact .done _ (WinEqv.refl _ _)
  · exact .error _
  · exact .fault _

theorem WindowsResult.Eqv.symm {x y : WindowsResult} (h : x.Eqv y) : y.Eqv x := by
  cases h
  · exact .fault _
  · exact .error _
  · rename_i h; exact .done _ h.symm

theorem WindowsResult.Eqv.trans {x y z : WindowsResult} (h : x.Eqv y) (h' : y.Eqv z) : x.Eqv z := by
  cases h
  · exact h'
  · exact h'
  · rename_i h
    cases h'
    rename_i h'
    exact .done _ (h.trans h')

theorem WindowsResult.Eqv.prepend {x y : WindowsResult} (h : x.Eqv y) (o : Bytes) :
    (x.prepend o).Eqv (y.prepend o) := by
  cases h
  · exact .fault _
  · exact .error _
  · rename_i h; exact .done _ h

/-- Equivalent states go on in the same way. -/
theorem winRun_congr {L L' : Level} (hL : LevelInv L) (hq : L.Quiet) (hL' : LevelInv L')
    (hq' : L'.Quiet) {s s' : Bytes} (h : WinEqv L s L' s') :
    (winRun L s).Eqv (winRun L' s') := by
  rw [winRun_eq' hL hq, winRun_eq' hL' hq']
  have := decodeWindow_congr hL h
  generalize decodeWindow L s = x at this
  generalize decodeWindow L' s' = y at this
  cases this with
  | fault f => exact .fault f
  | error => exact .error _
  | ok L r => exact WindowsResult.Eqv.refl _
  | endOfData h => exact .done _ h

/-- Where the loop stops is a quiet state. -/
theorem winRun_quiet {L : Level} (hL : LevelInv L) (hq : L.Quiet) {s r out : Bytes} {L' : Level}
    (h : winRun L s = .done L' r out) :
    L'.Quiet ∧ (decodeWindow L' r = .endOfData L' r ∨ (L'.reachedPlanned = true ∧ L'.win = none)) := by
  induction hn : s.length using Nat.strongRecOn generalizing L s out with
  | _ n ih =>
    rw [winRun_eq' hL hq] at h
    cases hd : decodeWindow L s with
    | fault f => simp [hd] at h
    | error => simp [hd] at h
    | endOfData L1 r1 =>
      simp only [hd, WindowsResult.done.injEq] at h
      obtain ⟨rfl, rfl, rfl⟩ := h
      obtain ⟨i1, _, i3, _⟩ := decodeWindow_eod hL hd
      exact ⟨quiet_of_idle i1.inv i3, Or.inl i3⟩
    | ok L1 r1 =>
      simp only [hd] at h
      obtain ⟨i1, i2, ⟨pre, hpre, hne⟩, _⟩ := decodeWindow_ok hL hd
      split at h
      · rename_i hp
        simp only [WindowsResult.done.injEq] at h
        obtain ⟨rfl, rfl, rfl⟩ := h
        exact ⟨quiet_closed i2, Or.inr ⟨hp, i2⟩⟩
      · have hs : s ≠ [] := by
          rintro rfl
          rw [hq] at hd
          simp at hd
        have hlt : r1.length < n := by
          have := List.length_pos_iff.2 (hne hs)
          rw [← hn, hpre, List.length_append]
          omega
        cases hw : winRun L1.next.1 r1 with
        | fault f => simp [hw, WindowsResult.prepend] at h
        | error o => simp [hw, WindowsResult.prepend] at h
        | done L2 r2 o2 =>
          simp only [hw, WindowsResult.prepend, WindowsResult.done.injEq] at h
          obtain ⟨rfl, rfl, rfl⟩ := h
          exact ih _ hlt (i1.inv.next i2) (next_quiet i2) hw rfl

/-- The loop over windows when its input is extended. -/
theorem winRun_split {L : Level} (hL : LevelInv L) (hq : L.Quiet)
    (hnd : L.win = none → L.reachedPlanned = false) (a b : Bytes) :
    (∃ f, winRun L a = .fault f ∧ winRun L (a ++ b) = .fault f) ∨
    (∃ o, winRun L a = .error o ∧ winRun L (a ++ b) = .error o) ∨
    ∃ L1 r1 o1, winRun L a = .done L1 r1 o1 ∧
      ((L1.reachedPlanned = true ∧ L1.win = none ∧ winRun L (a ++ b) = .done L1 (r1 ++ b) o1) ∨
       ((L1.win = none → L1.reachedPlanned = false) ∧
          (winRun L (a ++ b)).Eqv ((winRun L1 (r1 ++ b)).prepend o1)) ∨
       (r1 = [] ∧ ∃ o, winRun L (a ++ b) = .error o ∧ (∃ o', o1 ++ L1.text = o ++ o') ∧
          (L.win = none → L.allowExtensions = true))) := by
  induction hn : a.length using Nat.strongRecOn generalizing L a with
  | _ n ih =>
    obtain ⟨x1, x2, x3, x4⟩ := decodeWindow_extend hL a b
    have e1 := winRun_eq' hL hq a
    have e2 := winRun_eq' hL hq (a ++ b)
    cases hd : decodeWindow L a with
    | fault f =>
      left
      simp only [hd] at e1
      simp only [x1 _ hd] at e2
      exact ⟨f, e1, e2⟩
    | error =>
      right; left
      simp only [hd] at e1
      simp only [x2 hd] at e2
      exact ⟨[], e1, e2⟩
    | endOfData L1 r1 =>
      right; right
      simp only [hd] at e1
      obtain ⟨y1, y2, _⟩ := x4 _ _ hd
      obtain ⟨i1, _, _, _⟩ := decodeWindow_eod hL hd
      have hnd1 : L1.win = none → L1.reachedPlanned = false := by
        rcases (decodeWindow_inv hL a).2.1 _ _ hd with ⟨_, rfl, _⟩ | ⟨_, _, ⟨c, d, w, sp, tot, _, h1, _⟩, _⟩
        · exact hnd
        · rw [h1]
          intro hx
          simp [Level.after] at hx
      refine ⟨L1, r1, [], e1, Or.inr (Or.inl ⟨hnd1, ?_⟩)⟩
      rw [WindowsResult.prepend_nil, e2, winRun_eq' i1.inv (quiet_of_idle i1.inv y2)]
      have := WinResult.eqv_of_skip y1
      generalize decodeWindow L (a ++ b) = x at this
      generalize decodeWindow L1 (r1 ++ b) = y at this
      cases this with
      | fault f => exact .fault f
      | error => exact .error _
      | ok L r => exact WindowsResult.Eqv.refl _
      | endOfData h => exact .done _ h
    | ok L1 r1 =>
      obtain ⟨i1, i2, ⟨pre, hpre, hne⟩, d, i4, i5, i6⟩ := decodeWindow_ok hL hd
      simp only [hd] at e1
      have hs : a ≠ [] := by
        rintro rfl
        rw [hq] at hd
        simp at hd
      have hlt : r1.length < n := by
        have := List.length_pos_iff.2 (hne hs)
        rw [← hn, hpre, List.length_append]
        omega
      rcases x3 _ _ hd with hx | ⟨hx, hr, hv⟩
      · simp only [hx] at e2
        by_cases hp : L1.reachedPlanned = true
        · rw [if_pos hp] at e1 e2
          exact Or.inr (Or.inr ⟨L1, r1, [], e1, Or.inl ⟨hp, i2, e2⟩⟩)
        · rw [if_neg hp] at e1 e2
          have hnd1 : L1.next.1.win = none → L1.next.1.reachedPlanned = false := by
            intro _
            have := (next_fields L1).1
            have hpl := (static_fields (next_static L1)).planned
            have hp' : L1.reachedPlanned = false := by simpa using hp
            unfold Level.reachedPlanned at hp' ⊢
            rw [this, hpl]
            exact hp'
          rcases ih _ hlt (i1.inv.next i2) (next_quiet i2) hnd1 r1 rfl with
            ⟨f, h1, h2⟩ | ⟨o, h1, h2⟩ | ⟨L2, r2, o2, h1, h2⟩
          · rw [h1] at e1
            rw [h2] at e2
            exact Or.inl ⟨f, e1, e2⟩
          · rw [h1] at e1
            rw [h2] at e2
            exact Or.inr (Or.inl ⟨_, e1, e2⟩)
          · right; right
            rw [h1] at e1
            refine ⟨L2, r2, L1.next.2 ++ o2, e1, ?_⟩
            rcases h2 with ⟨k1, k2, k3⟩ | ⟨k0, k⟩ | ⟨k0, o, k1, ⟨o', k2⟩, k3⟩
            · rw [k3] at e2
              exact Or.inl ⟨k1, k2, e2⟩
            · refine Or.inr (Or.inl ⟨k0, ?_⟩)
              rw [e2, ← WindowsResult.prepend_prepend]
              exact k.prepend _
            · refine Or.inr (Or.inr ⟨k0, L1.next.2 ++ o, ?_, ⟨o', ?_⟩, ?_⟩)
              · rw [e2, k1]; rfl
              · rw [List.append_assoc, k2, List.append_assoc]
              · intro _
                have hv := (static_fields (next_static L1)).version
                have hv1 := (static_fields i1.stat).version
                have hk := k3 (by rw [(next_fields L1).2.2.1, i2])
                unfold Level.allowExtensions at hk ⊢
                rw [hv, hv1] at hk
                exact hk
      · simp only [hx] at e2
        subst hr
        right; right
        by_cases hp : L1.reachedPlanned = true
        · rw [if_pos hp] at e1
          exact ⟨L1, [], [], e1, Or.inr (Or.inr ⟨rfl, [], e2, ⟨_, rfl⟩, hv⟩)⟩
        · rw [if_neg hp] at e1
          have hnil : winRun L1.next.1 [] = .done L1.next.1 [] [] := by
            rw [winRun_eq (i1.inv.next i2)]; simp
          rw [hnil] at e1
          exact ⟨L1.next.1, [], _, e1, Or.inr (Or.inr ⟨rfl, [], e2, ⟨_, rfl⟩, hv⟩)⟩

/-! ### Members not used by the loop -/

/-- Replace `unparsed_bytes_`. -/
def Level.setUnparsed (L : Level) (u : Bytes) : Level := { L with unparsed := u }

def WinResult.setUnparsed (u : Bytes) : WinResult → WinResult
  | .ok L r => .ok (L.setUnparsed u) r
  | .endOfData L r => .endOfData (L.setUnparsed u) r
  | r => r

def WindowsResult.setUnparsed (u : Bytes) : WindowsResult → WindowsResult
  | .done L r o => .done (L.setUnparsed u) r o
  | r => r

theorem decodeWindowBody_setUnparsed (L : Level) (u : Bytes) (w : OpenWindow) (c : AddrCache)
    (s : Bytes) :
    decodeWindowBody (L.setUnparsed u) w c s = (decodeWindowBody L w c s).setUnparsed u := by
  cases hi : w.hdr.interleaved with
  | true =>
    rw [dwb_inter hi, dwb_inter hi]
    change (match bodyRun (L.env w.hdr) (interBody L w c s) with
      | .fault f => _ | .error => _ | .ok b' => _ | .endOfData b' => _) = _
    cases bodyRun (L.env w.hdr) (interBody L w c s) with
    | fault f => rfl
    | error => rfl
    | ok b =>
      simp only
      have : bodyEndOk ((L.setUnparsed u).env w.hdr) b = bodyEndOk (L.env w.hdr) b := rfl
      rw [this]
      split <;> rfl
    | endOfData b =>
      simp only
      split <;> rfl
  | false =>
    rw [dwb_std hi, dwb_std hi]
    change (match bodyRun (L.env w.hdr) (stdBody L w c s) with
      | .fault f => _ | .error => _ | .endOfData b' => _ | .ok b' => _) = _
    cases bodyRun (L.env w.hdr) (stdBody L w c s) with
    | fault f => rfl
    | error => rfl
    | ok b =>
      simp only
      have : bodyEndOk ((L.setUnparsed u).env w.hdr) b = bodyEndOk (L.env w.hdr) b := rfl
      rw [this]
      split <;> rfl
    | endOfData b => rfl

theorem decodeWindow_setUnparsed (L : Level) (u s : Bytes) :
    decodeWindow (L.setUnparsed u) s = (decodeWindow L s).setUnparsed u := by
  cases hw : L.win with
  | none =>
    rw [decodeWindow_none hw, decodeWindow_none (L := L.setUnparsed u) hw]
    have h1 : readHeader (L.setUnparsed u) s = readHeader L s := rfl
    have h2 : (L.setUnparsed u).cache = L.cache := rfl
    rw [h1, h2]
    cases readHeader L s with
    | endOfData => rfl
    | error => rfl
    | ok hdr rest =>
      simp only
      cases L.cache.bind AddrCache.init with
      | none => rfl
      | some c => exact decodeWindowBody_setUnparsed (L.opened hdr) u _ _ _
  | some w =>
    have hw' : (L.setUnparsed u).win = some w := hw
    have h2 : (L.setUnparsed u).cache = L.cache := rfl
    rw [decodeWindow, decodeWindow, hw, hw', h2]
    simp only
    split
    · rfl
    · cases L.cache with
      | none => rfl
      | some c => exact decodeWindowBody_setUnparsed L u _ _ _

theorem windowLoop_setUnparsed (fuel : Nat) (L : Level) (u s out : Bytes) :
    windowLoop fuel (L.setUnparsed u) s out = (windowLoop fuel L s out).setUnparsed u := by
  induction fuel generalizing L s out with
  | zero => rfl
  | succ fuel ih =>
    unfold windowLoop
    rw [decodeWindow_setUnparsed]
    split
    · rfl
    · cases decodeWindow L s with
      | fault f => rfl
      | error => rfl
      | endOfData L' r => rfl
      | ok L' r =>
        simp only [WinResult.setUnparsed]
        have h1 : (L'.setUnparsed u).reachedPlanned = L'.reachedPlanned := rfl
        have h2 : (L'.setUnparsed u).allowTarget = L'.allowTarget := rfl
        rw [h1, h2]
        split
        · rfl
        · split
          · exact ih L'.flush.1 r _
          · exact ih L' r _

theorem winRun_setUnparsed (L : Level) (u s : Bytes) :
    winRun (L.setUnparsed u) s = (winRun L s).setUnparsed u := windowLoop_setUnparsed _ _ _ _ _

end Vcd
