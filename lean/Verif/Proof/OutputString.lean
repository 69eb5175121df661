import Verif.Proof.Api
import Verif.Spec.OutputString

/-!
# Output strings: how often they are resized
-/

namespace Vcd
open Spec

/-- The string after some events, and the resizes still allowed if each window allows one; `none` if there
have been too many. -/
def payOne (g : Growth) : OutString × Nat → OutEvent → Option (OutString × Nat)
  | (o, k), .window => some (o, k + 1)
  | (o, k), .op x =>
    if (o.perform g x).resizes = o.resizes then some (o.perform g x, k)
    else if k = 0 then none
    else some (o.perform g x, k - 1)

def pay (g : Growth) : OutString × Nat → List OutEvent → Option (OutString × Nat)
  | p, [] => some p
  | p, e :: es => (payOne g p e).bind fun p => pay g p es

theorem pay_append (g : Growth) (p : OutString × Nat) (a b : List OutEvent) :
    pay g p (a ++ b) = (pay g p a).bind fun p => pay g p b := by
  induction a generalizing p with
  | nil => rfl
  | cons e a ih =>
    simp only [List.cons_append, pay]
    cases payOne g p e with
    | none => rfl
    | some q => exact ih q

theorem pay_append_some {g : Growth} {p q r : OutString × Nat} {a b : List OutEvent} (h1 : pay g p a = some q)
    (h2 : pay g q b = some r) : pay g p (a ++ b) = some r := by
  rw [pay_append, h1]; exact h2

theorem recap_resizes (o : OutString) (c : Nat) : o.resizes ≤ (o.recap c).resizes ∧ (o.recap c).resizes ≤ o.resizes + 1 := by
  unfold OutString.recap
  split
  · exact ⟨Nat.le_refl _, Nat.le_succ _⟩
  · exact ⟨Nat.le_succ _, Nat.le_refl _⟩

theorem perform_resizes (g : Growth) (o : OutString) (x : OutOp) :
    o.resizes ≤ (o.perform g x).resizes ∧ (o.perform g x).resizes ≤ o.resizes + 1 := by
  cases x with
  | reserve n => exact recap_resizes _ _
  | append b =>
    simp only [OutString.perform]
    split
    · exact ⟨Nat.le_refl _, Nat.le_succ _⟩
    · exact recap_resizes _ _

theorem payOne_some {g : Growth} {o o' : OutString} {k k' : Nat} {e : OutEvent} (h : payOne g (o, k) e = some (o', k')) :
    o' = o.performAll g (opsOf [e]) ∧ o'.resizes + k' = o.resizes + k + windowsOf [e] := by
  cases e with
  | window =>
    simp only [payOne, Option.some.injEq, Prod.mk.injEq] at h
    obtain ⟨rfl, rfl⟩ := h
    exact ⟨rfl, by simp [windowsOf]; omega⟩
  | op x =>
    have hp := perform_resizes g o x
    simp only [payOne] at h
    split at h
    · rename_i hr
      simp only [Option.some.injEq, Prod.mk.injEq] at h
      obtain ⟨rfl, rfl⟩ := h
      exact ⟨rfl, by rw [hr]; simp [windowsOf]⟩
    · split at h
      · simp at h
      · simp only [Option.some.injEq, Prod.mk.injEq] at h
        obtain ⟨rfl, rfl⟩ := h
        exact ⟨rfl, by simp only [windowsOf, List.count_cons, List.count_nil]; simp; omega⟩

theorem opsOf_cons (e : OutEvent) (es : List OutEvent) : opsOf (e :: es) = opsOf [e] ++ opsOf es := by
  cases e <;> rfl

theorem windowsOf_cons (e : OutEvent) (es : List OutEvent) : windowsOf (e :: es) = windowsOf [e] + windowsOf es := by
  simp only [windowsOf, List.count_cons, List.count_nil]; omega

theorem performAll_append (g : Growth) (o : OutString) (a b : List OutOp) :
    o.performAll g (a ++ b) = (o.performAll g a).performAll g b := by
  simp [OutString.performAll]

/-- Events that can be paid for have at no moment more resizes than windows. -/
theorem pay_prefix {g : Growth} {es : List OutEvent} {o o' : OutString} {k k' : Nat} (h : pay g (o, k) es = some (o', k'))
    {pre : List OutEvent} (hp : pre <+: es) :
    (o.performAll g (opsOf pre)).resizes ≤ o.resizes + k + windowsOf pre := by
  induction es generalizing o k pre with
  | nil =>
    rw [List.prefix_nil] at hp
    subst hp
    simp [opsOf, OutString.performAll]
    omega
  | cons e es ih =>
    cases pre with
    | nil => simp [opsOf, OutString.performAll]; omega
    | cons e' pre =>
      rw [List.cons_prefix_cons] at hp
      obtain ⟨rfl, hp⟩ := hp
      unfold pay at h
      cases h1 : payOne g (o, k) e' with
      | none => simp [h1] at h
      | some q =>
        obtain ⟨o1, k1⟩ := q
        simp only [h1, Option.bind_some] at h
        obtain ⟨rfl, h2⟩ := payOne_some h1
        have := ih h hp
        rw [opsOf_cons, windowsOf_cons, performAll_append]
        omega

/-! ### The invariant -/

/-- The string is good for `t` bytes waiting to be output and `m` bytes that will complete the window:
there is a resize left, or the space is there. -/
structure Room (g : Growth) (o : OutString) (k t m : Nat) : Prop where
  ok : o.Ok
  room : 0 < k ∨ (m = 0 ∧ o.text.length + t ≤ o.capacity) ∨
    (o.text.length + t + m ≤ o.capacity ∧ g.reserve o.capacity (o.text.length + t + m) = o.capacity)

theorem Room.zero {g : Growth} {o : OutString} {k t m : Nat} (h : Room g o k t m) : Room g o k t 0 := by
  refine ⟨h.ok, ?_⟩
  rcases h.room with h | ⟨_, h⟩ | ⟨h, _⟩
  · exact Or.inl h
  · exact Or.inr (Or.inl ⟨rfl, h⟩)
  · exact Or.inr (Or.inl ⟨rfl, by omega⟩)

theorem Room.move {g : Growth} {o : OutString} {k t m d m' : Nat} (h : Room g o k t m) (e : m = d + m') :
    Room g o k (t + d) m' := by
  subst e
  refine ⟨h.ok, ?_⟩
  rcases h.room with h | ⟨h0, h⟩ | ⟨h, h1⟩
  · exact Or.inl h
  · exact Or.inr (Or.inl ⟨by omega, by omega⟩)
  · have : o.text.length + (t + d) + m' = o.text.length + t + (d + m') := by omega
    exact Or.inr (Or.inr (by rw [this]; exact ⟨h, h1⟩))

theorem Room.pos {g : Growth} {o : OutString} {k : Nat} (h : o.Ok) (hk : 0 < k) (t m : Nat) : Room g o k t m :=
  ⟨h, Or.inl hk⟩

/-- An append. -/
theorem Room.append {g : Growth} (hg : g.Steady) {o : OutString} {k m : Nat} {b : Bytes}
    (h : Room g o k b.length m) (hm : m = 0 ∨ o.text.length + b.length + m ≤ o.capacity ∧
      g.reserve o.capacity (o.text.length + b.length + m) = o.capacity) :
    ∃ o' k', payOne g (o, k) (.op (.append b)) = some (o', k') ∧ Room g o' k' 0 m := by
  by_cases hfit : o.text.length + b.length ≤ o.capacity
  · have hp : o.perform g (.append b) = { o with text := o.text ++ b } := by
      simp [OutString.perform, hfit]
    refine ⟨{ o with text := o.text ++ b }, k, by simp only [payOne, hp, if_true], ⟨?_, ?_⟩⟩
    · simp [OutString.Ok, hfit]
    · right
      rcases hm with h0 | ⟨h1, h2⟩
      · left; exact ⟨h0, by simp [hfit]⟩
      · right; simp only [List.length_append, Nat.add_zero]; exact ⟨h1, h2⟩
  · have hm0 : m = 0 := by
      rcases hm with h | ⟨h, _⟩
      · exact h
      · omega
    have hk : 0 < k := by
      rcases h.room with h | ⟨_, h⟩ | ⟨h, _⟩
      · exact h
      · omega
      · omega
    have hc := hg.append o.capacity (o.text.length + b.length)
    have hne : g.append o.capacity (o.text.length + b.length) ≠ o.capacity := by omega
    have hp : o.perform g (.append b) =
        { text := o.text ++ b, capacity := g.append o.capacity (o.text.length + b.length), resizes := o.resizes + 1 } := by
      simp [OutString.perform, hfit, OutString.recap, hne]
    refine ⟨{ text := o.text ++ b, capacity := g.append o.capacity (o.text.length + b.length), resizes := o.resizes + 1 },
      k - 1, by simp only [payOne, hp]; rw [if_neg (by simp), if_neg (by omega)], ⟨?_, ?_⟩⟩
    · simpa [OutString.Ok] using hc
    · exact Or.inr (Or.inl ⟨hm0, by simpa using hc⟩)

/-- The operations of `AppendNewOutputText`. -/
theorem Room.appendNew {g : Growth} (hg : g.Steady) {o : OutString} {k m : Nat} {b : Bytes}
    (h : Room g o k b.length m) :
    ∃ o' k', pay g (o, k) (((if b.length > 0 then (if m > 0 then [OutOp.reserve (b.length + m)] else []) ++ [OutOp.append b]
      else []) : List OutOp).map OutEvent.op) = some (o', k') ∧ Room g o' k' 0 m := by
  by_cases hb : b.length > 0
  · rw [if_pos hb]
    by_cases hm : m > 0
    · rw [if_pos hm]
      -- the reservation
      have hr : ∃ o1 k1, payOne g (o, k) (.op (.reserve (b.length + m))) = some (o1, k1) ∧ o1.text = o.text ∧
          o.text.length + b.length + m ≤ o1.capacity ∧
          g.reserve o1.capacity (o.text.length + b.length + m) = o1.capacity := by
        have hc := hg.reserve o.capacity (o.text.length + b.length + m)
        have ha := hg.again o.capacity (o.text.length + b.length + m)
        have hassoc : o.text.length + (b.length + m) = o.text.length + b.length + m := by omega
        by_cases he : g.reserve o.capacity (o.text.length + b.length + m) = o.capacity
        · have hp : o.perform g (.reserve (b.length + m)) = o := by
            simp [OutString.perform, OutString.recap, hassoc, he]
          exact ⟨o, k, by simp [payOne, hp], rfl, by omega, he⟩
        · have hk : 0 < k := by
            rcases h.room with h | ⟨h, _⟩ | ⟨_, h⟩
            · exact h
            · omega
            · exact absurd h he
          have hp : o.perform g (.reserve (b.length + m)) =
              { o with capacity := g.reserve o.capacity (o.text.length + b.length + m), resizes := o.resizes + 1 } := by
            simp [OutString.perform, OutString.recap, hassoc, he]
          refine ⟨{ o with capacity := g.reserve o.capacity (o.text.length + b.length + m), resizes := o.resizes + 1 },
            k - 1, by simp only [payOne, hp]; rw [if_neg (by simp), if_neg (by omega)], rfl, hc, ha⟩
      obtain ⟨o1, k1, p1, e1, r1, r2⟩ := hr
      have hroom : Room g o1 k1 b.length m :=
        ⟨by rw [OutString.Ok, e1]; omega, Or.inr (Or.inr (by rw [e1]; exact ⟨r1, r2⟩))⟩
      obtain ⟨o2, k2, p2, r⟩ := hroom.append hg (Or.inr (by rw [e1]; exact ⟨r1, r2⟩))
      exact ⟨o2, k2, by simp [pay, p1, p2], r⟩
    · have hm0 : m = 0 := by omega
      obtain ⟨o2, k2, p2, r⟩ := h.append hg (Or.inl hm0)
      rw [if_neg hm]
      exact ⟨o2, k2, by simp [pay, p2], r⟩
  · rw [if_neg hb]
    have : b.length = 0 := by omega
    rw [this] at h
    exact ⟨o, k, rfl, h⟩

/-! ### The size of the next window -/

/-- The parser behind `Level.lengthRead`. -/
def lengthParser (L : Level) (s : Bytes) : Parsed Nat :=
  (parseWinIndicator L.dict.length L.decoded.length L.allowTarget s).bind fun _ s =>
    (parseSize s).bind fun _ s => parseSize s

theorem Local.lengthParser (L : Level) : Local (lengthParser L) := by
  unfold Vcd.lengthParser
  exact (Local.parseWinIndicator _ _ _).bind fun _ => Local.parseSize.bind fun _ => Local.parseSize

theorem lengthRead_some {L : Level} {s : Bytes} {n : Nat} (h : L.lengthRead s = some n) :
    ∃ r, lengthParser L s = .ok n r := by
  unfold Level.lengthRead at h
  change (match lengthParser L s with | .ok n _ => some n | _ => none) = some n at h
  cases hp : lengthParser L s with
  | ok m r => rw [hp] at h; simp at h; exact ⟨r, by rw [h]⟩
  | endOfData => rw [hp] at h; simp at h
  | error => rw [hp] at h; simp at h

theorem lengthRead_of {L : Level} {s r : Bytes} {n : Nat} (h : lengthParser L s = .ok n r) : L.lengthRead s = some n := by
  unfold Level.lengthRead
  change (match lengthParser L s with | .ok n _ => some n | _ => none) = some n
  rw [h]

theorem lengthRead_append {L : Level} {s : Bytes} {n : Nat} (h : L.lengthRead s = some n) (t : Bytes) :
    L.lengthRead (s ++ t) = some n := by
  obtain ⟨r, hr⟩ := lengthRead_some h
  exact lengthRead_of (((Local.lengthParser L).stable.ok hr).2 t)

theorem lengthRead_nil (L : Level) : L.lengthRead [] = none := rfl

theorem lengthRead_header {L : Level} {s r : Bytes} {hdr : WinHeader} (h : readHeader L s = .ok hdr r) :
    L.lengthRead s = some hdr.targetLen := by
  rw [readHeader_eq] at h
  obtain ⟨f, s', h1, h2⟩ := Parsed.bind_eq_ok.1 h
  unfold Vcd.headerFields at h1
  obtain ⟨isp, s1, g1, h1⟩ := Parsed.bind_eq_ok.1 h1
  obtain ⟨dl, s2, g2, h1⟩ := Parsed.bind_eq_ok.1 h1
  obtain ⟨tl, s3, g3, h1⟩ := Parsed.bind_eq_ok.1 h1
  unfold Vcd.deltaFields at g3
  obtain ⟨tlen, s4, g4, g3⟩ := Parsed.bind_eq_ok.1 g3
  by_cases he : L.wouldExceed tlen = true
  · simp [he] at g3
  rw [if_neg he] at g3
  obtain ⟨u, s5, g5, g3⟩ := Parsed.bind_eq_ok.1 g3
  obtain ⟨lens, s6, g6, g3⟩ := Parsed.bind_eq_ok.1 g3
  simp only [Parsed.ok.injEq] at g3 h1
  obtain ⟨rfl, rfl⟩ := g3
  obtain ⟨rfl, rfl⟩ := h1
  split at h2
  · simp at h2
  simp only [Parsed.ok.injEq] at h2
  obtain ⟨rfl, rfl⟩ := h2
  exact lengthRead_of (r := s4) (by simp [lengthParser, g1, g2, g4, mkHeader])

/-- The bytes that will complete the window at hand, as far as its size has been read. -/
def Level.rem (L : Level) (s : Bytes) : Nat :=
  match L.win with
  | some _ => L.owed
  | none => (L.lengthRead s).getD 0

theorem targetBytesRemaining_eq {L : Level} (hL : LevelInv L) (s : Bytes) : L.targetBytesRemaining s = L.rem s := by
  unfold Level.targetBytesRemaining Level.rem Level.owed Level.targetBytesDecoded
  cases hw : L.win with
  | some w =>
    obtain ⟨_, h2, c, n, m, _, h4⟩ := hL.opened w hw
    have h5 : L.startPos ≤ L.decoded.length := h4.win.start
    simp only
    rw [if_neg (by omega), szSub_eq h5, szSub_eq (by omega)]
    omega
  | none =>
    have := hL.closed hw
    simp only
    cases L.lengthRead s with
    | none => rfl
    | some n =>
      simp only [this, Option.getD_some]
      split
      · omega
      · rw [szSub_eq (Nat.le_refl _), szSub_eq (by omega)]; omega

/-- One window. -/
theorem rem_ok {L L' : Level} (hL : LevelInv L) {s r : Bytes} (h : decodeWindow L s = .ok L' r)
    (hp : L.outPos ≤ L.decoded.length) : L'.text.length = L.text.length + L.rem s := by
  obtain ⟨_, _, _, d, hd, ho, ht⟩ := decodeWindow_ok hL h
  obtain ⟨_, _, _, _, hn, hs⟩ := (decodeWindow_inv hL s).1 _ _ h
  have hd' : L'.text.length = L.text.length + d.length := by
    simp only [Level.text, hd, ho, List.length_drop, List.length_append]; omega
  rw [hd']
  unfold Level.rem
  cases hw : L.win with
  | none =>
    obtain ⟨hdr, rest, h1, h2⟩ := hn hw
    have : L.owed = 0 := by simp [Level.owed, hw]
    simp only [lengthRead_header h1, Option.getD_some]
    omega
  | some w =>
    have := hs w hw
    simp only
    omega

theorem rem_eod {L L' : Level} (hL : LevelInv L) {s r : Bytes} (h : decodeWindow L s = .endOfData L' r)
    (hp : L.outPos ≤ L.decoded.length) : ∃ d, L'.text.length = L.text.length + d ∧ L.rem s = d + L'.rem r := by
  rcases (decodeWindow_inv hL s).2.1 _ _ h with ⟨_, rfl, rfl⟩ | ⟨_, _, ⟨c, d, w, sp, tot, _, hL', ht, _⟩, hn, hs⟩
  · exact ⟨0, by omega, by omega⟩
  · have hwin : L'.win = some w := by rw [hL']; rfl
    have hdec : L'.decoded = L.decoded ++ d := by rw [hL']; rfl
    have hout : L'.outPos = L.outPos := by rw [hL']; rfl
    have htot : L'.total = tot := by rw [hL']; rfl
    refine ⟨d.length, ?_, ?_⟩
    · simp only [Level.text, hdec, hout, List.length_drop, List.length_append]; omega
    · have hr : L'.rem r = L'.owed := by simp [Level.rem, hwin]
      rw [hr]
      rw [hdec, List.length_append] at ht
      unfold Level.rem
      cases hw : L.win with
      | none =>
        obtain ⟨hdr, rest, h1, h2, _⟩ := hn hw
        have : L.owed = 0 := by simp [Level.owed, hw]
        simp only [lengthRead_header h1, Option.getD_some]
        omega
      | some w' =>
        have := (hs w' hw).1
        simp only
        omega

/-- What is known of the window at hand before a call, or the rest of one. -/
def Level.pend (L : Level) (seen : Bool) (s : Bytes) : Nat :=
  if L.win.isNone && !seen then 0 else L.rem s

/-- The loop over windows. -/
theorem loop_room {g : Growth} (hg : g.Steady) (fuel : Nat) (seen : Bool) {L : Level} (hL : LevelInv L)
    (hp : L.outPos ≤ L.decoded.length) (hpl : L.planned = none) {s : Bytes} {o : OutString} {k : Nat}
    (h : Room g o k L.text.length (L.pend seen s)) :
    ∃ o' k', pay g (o, k) (windowLoopEvents fuel seen L s).1 = some (o', k') ∧ o'.Ok ∧
      ∀ L' r, (windowLoopEvents fuel seen L s).2 = some (L', r) → LevelInv L' ∧ L'.outPos ≤ L'.decoded.length ∧
        Room g o' k' L'.text.length (L'.rem r) := by
  induction fuel generalizing seen L s o k with
  | zero => exact ⟨o, k, rfl, h.ok, by simp [windowLoopEvents]⟩
  | succ fuel ih =>
    unfold windowLoopEvents
    by_cases hs : s = []
    · rw [if_pos hs]
      refine ⟨o, k, rfl, h.ok, ?_⟩
      intro L' r e
      simp only [Option.some.injEq, Prod.mk.injEq] at e
      obtain ⟨rfl, rfl⟩ := e
      refine ⟨hL, hp, ?_⟩
      unfold Level.pend at h
      split at h
      · rename_i hw
        have hwin : L.win = none := by
          cases hx : L.win with
          | none => rfl
          | some w => simp [hx] at hw
        have : L.rem s = 0 := by rw [hs]; simp [Level.rem, hwin, lengthRead_nil]
        rw [this]; exact h
      · exact h
    · rw [if_neg hs]
      -- the window is announced
      have hb : ∃ k1, pay g (o, k) (if L.win.isNone && !seen && (L.lengthRead s).isSome then [OutEvent.window] else []) =
          some (o, k1) ∧ Room g o k1 L.text.length (L.rem s) := by
        by_cases hw : (L.win.isNone && !seen && (L.lengthRead s).isSome) = true
        · rw [if_pos hw]
          exact ⟨k + 1, rfl, Room.pos h.ok (by omega) _ _⟩
        · rw [if_neg hw]
          refine ⟨k, rfl, ?_⟩
          unfold Level.pend at h
          split at h
          · rename_i hw'
            rw [hw', Bool.true_and] at hw
            have hwin : L.win = none := by
              cases hx : L.win with
              | none => rfl
              | some w => simp [hx] at hw'
            have hn : L.lengthRead s = none := by
              cases hx : L.lengthRead s with
              | none => rfl
              | some n => simp [hx] at hw
            have : L.rem s = 0 := by simp [Level.rem, hwin, hn]
            rw [this]; exact h
          · exact h
      obtain ⟨k1, hb1, hb2⟩ := hb
      simp only
      generalize (if L.win.isNone && !seen && (L.lengthRead s).isSome then [OutEvent.window] else []) = begun at hb1 ⊢
      cases hd : decodeWindow L s with
      | fault f => exact ⟨o, k1, hb1, h.ok, by simp⟩
      | error => exact ⟨o, k1, hb1, h.ok, by simp⟩
      | endOfData L' r =>
        refine ⟨o, k1, hb1, h.ok, ?_⟩
        intro L2 r2 e
        simp only [Option.some.injEq, Prod.mk.injEq] at e
        obtain ⟨rfl, rfl⟩ := e
        obtain ⟨st, _⟩ := decodeWindow_eod hL hd
        obtain ⟨d, e1, e2⟩ := rem_eod hL hd hp
        refine ⟨st.inv, st.out hp, ?_⟩
        rw [e1]
        exact hb2.move e2
      | ok L' r =>
        obtain ⟨st, hwin, _⟩ := decodeWindow_ok hL hd
        have e1 := rem_ok hL hd hp
        have hpl' : L'.planned = none := by rw [(static_fields st.stat).planned, hpl]
        have hnr : L'.reachedPlanned = false := by simp [Level.reachedPlanned, hpl']
        have hroom : Room g o k1 L'.text.length 0 := by
          rw [e1]; exact hb2.move (by omega)
        simp only [hnr, Bool.false_eq_true, if_false]
        have hpend : ∀ L : Level, L.win = none → ∀ s, L.pend false s = 0 := by
          intro L h s; simp [Level.pend, h]
        by_cases ha : L'.allowTarget = true
        · simp only [ha, Bool.not_true, Bool.false_eq_true, if_false]
          obtain ⟨o', k', p1, p2, p3⟩ := ih false st.inv (st.out hp) hpl' (s := r) (o := o) (k := k1)
            (by rw [hpend _ hwin]; exact hroom)
          exact ⟨o', k', pay_append_some hb1 p1, p2, p3⟩
        · have ha' : L'.allowTarget = false := by simpa using ha
          simp only [ha', Bool.not_false, if_true]
          obtain ⟨o1, k2, q1, q2⟩ := Room.append hg (b := L'.flush.2) hroom (Or.inl rfl)
          obtain ⟨o', k', p1, p2, p3⟩ := ih false (st.inv.flush hwin) (L := L'.flush.1) (by simp [Level.flush])
            (by simpa [Level.flush] using hpl') (s := r) (o := o1) (k := k2)
            (by rw [hpend _ (by simpa [Level.flush] using hwin)]; simpa [Level.flush, Level.text] using q2)
          refine ⟨o', k', pay_append_some hb1 ?_, p2, p3⟩
          simp only [pay, q1, Option.bind_some]
          exact p1

/-! ### The text -/

def textOf (es : List OutEvent) : Bytes := appendedBy (opsOf es)

theorem textOf_append (a b : List OutEvent) : textOf (a ++ b) = textOf a ++ textOf b := by
  simp [textOf, opsOf, appendedBy]

theorem loop_erase (fuel : Nat) (seen : Bool) (L : Level) (s out : Bytes) :
    match windowLoop fuel L s out with
    | .done L' r o => (windowLoopEvents fuel seen L s).2 = some (L', r) ∧ o = out ++ textOf (windowLoopEvents fuel seen L s).1
    | .error o => (windowLoopEvents fuel seen L s).2 = none ∧ o = out ++ textOf (windowLoopEvents fuel seen L s).1
    | .fault _ => (windowLoopEvents fuel seen L s).2 = none := by
  induction fuel generalizing seen L s out with
  | zero => rfl
  | succ fuel ih =>
    unfold windowLoop windowLoopEvents
    by_cases hs : s = []
    · simp only [if_pos hs]
      exact ⟨trivial, by simp [textOf, opsOf, appendedBy]⟩
    · simp only [if_neg hs]
      have hb : textOf (if L.win.isNone && !seen && (L.lengthRead s).isSome then [OutEvent.window] else []) = [] := by
        split <;> rfl
      generalize (if L.win.isNone && !seen && (L.lengthRead s).isSome then [OutEvent.window] else []) = begun at hb ⊢
      cases decodeWindow L s with
      | fault f => rfl
      | error => exact ⟨rfl, by simp [hb]⟩
      | endOfData L' r => exact ⟨rfl, by simp [hb]⟩
      | ok L' r =>
        simp only
        by_cases hr : L'.reachedPlanned = true
        · simp only [hr, if_true]; exact ⟨trivial, by simp [hb]⟩
        · simp only [hr, if_false, Bool.false_eq_true]
          by_cases ha : (!L'.allowTarget) = true
          · simp only [ha, if_true]
            have h := ih false L'.flush.1 r (out ++ L'.flush.2)
            have ht : textOf (begun ++ OutEvent.op (OutOp.append L'.flush.2) :: (windowLoopEvents fuel false L'.flush.1 r).1) =
                L'.flush.2 ++ textOf (windowLoopEvents fuel false L'.flush.1 r).1 := by
              rw [textOf_append, hb]; rfl
            simp only [ht]
            cases hw : windowLoop fuel L'.flush.1 r (out ++ L'.flush.2) <;>
              simp only [hw, List.append_assoc] at h ⊢ <;> exact h
          · simp only [ha, if_false, Bool.false_eq_true]
            have h := ih false L' r out
            simp only [textOf_append, hb, List.nil_append]
            exact h

theorem appendNewOps_text (L : Level) (r : Bytes) : appendedBy (L.appendNewOps r) = L.text := by
  unfold Level.appendNewOps Level.text
  simp only
  split
  · split <;> simp [appendedBy]
  · rename_i h
    have : (L.decoded.drop L.outPos) = [] := List.length_eq_zero_iff.1 (by omega)
    rw [this]; rfl

theorem opsOf_map (ops : List OutOp) : opsOf (ops.map .op) = ops := by
  simp [opsOf, List.filterMap_map, Function.comp_def]

/-- The text output from the loop over windows on. -/
theorem windows_erase (seen : Bool) (L : Level) (s : Bytes) :
    (∀ L' ns' out, decodeChunkWindows L s = .ok L' ns' out → out = textOf (chunkWindowsEvents seen L s)) ∧
    (∀ L' out, decodeChunkWindows L s = .error L' out → out = textOf (chunkWindowsEvents seen L s)) := by
  have h := loop_erase (s.length + 2) seen L s []
  unfold decodeChunkWindows chunkWindowsEvents
  cases hw : windowLoop (s.length + 2) L s [] with
  | fault f => simp
  | error o =>
    simp only [hw] at h
    refine ⟨by simp, ?_⟩
    intro L' out e
    simp only [ChunkResult.error.injEq] at e
    dsimp only
    rw [← e.2, h.2, h.1]
    simp
  | done L1 r o =>
    simp only [hw] at h
    refine ⟨?_, by simp [endChunk]⟩
    intro L' ns' out e
    simp only [endChunk_eq, ChunkResult.ok.injEq] at e
    dsimp only
    rw [← e.2.2, h.2, h.1]
    simp only [textOf_append, List.nil_append]
    congr 1
    rw [textOf, opsOf_map, appendNewOps_text]

theorem table_erase {L : Level} (hd : L.decoded = []) (n : Level) (ns : List Level) (s : Bytes) :
    (∀ L' ns' out, tableStep chunkRun L (n :: ns) s = .ok L' ns' out → out = textOf (codeTableEvents L n ns s)) ∧
    (∀ L' out, tableStep chunkRun L (n :: ns) s = .error L' out → out = textOf (codeTableEvents L n ns s)) := by
  unfold tableStep codeTableEvents
  rw [decodeChunk_eq]
  simp only
  cases chunkRun n ns s with
  | fault f => simp
  | error n' o =>
    refine ⟨by simp [failed], fun L' out e => ?_⟩
    simp only [failed, ChunkResult.error.injEq] at e
    rw [← e.2]; rfl
  | ok n' ns' text =>
    simp only
    unfold afterCodeTableChunk
    simp only
    split
    · refine ⟨fun L' ns' out e => ?_, by simp [endChunk]⟩
      simp only [endChunk_eq, ChunkResult.ok.injEq] at e
      rw [← e.2.2]
      simp [Level.text, hd, textOf, opsOf, appendedBy]
    · split
      · refine ⟨by simp, fun L' out e => ?_⟩
        simp only [ChunkResult.error.injEq] at e
        rw [← e.2]; rfl
      · split
        · split
          · simp
          · exact windows_erase false _ _
        · refine ⟨by simp, fun L' out e => ?_⟩
          simp only [ChunkResult.error.injEq] at e
          rw [← e.2]; rfl

/-! ### `DecodeChunk` -/

theorem windows_room {g : Growth} (hg : g.Steady) (seen : Bool) {L : Level} (hL : LevelInv L)
    (hp : L.outPos = L.decoded.length) (hpl : L.planned = none) {s : Bytes} {o : OutString} {k : Nat}
    (h : Room g o k 0 (L.pend seen s)) :
    ∃ o' k', pay g (o, k) (chunkWindowsEvents seen L s) = some (o', k') ∧ o'.Ok ∧
      ∀ L' ns' out, decodeChunkWindows L s = .ok L' ns' out → ns' = [] ∧ Room g o' k' 0 (L'.rem L'.unparsed) := by
  have ht : L.text.length = 0 := by simp [Level.text, hp]
  obtain ⟨o1, k1, p1, p2, p3⟩ := loop_room hg (s.length + 2) seen hL (Nat.le_of_eq hp) hpl (s := s) (o := o) (k := k)
    (by rw [ht]; exact h)
  have he := loop_erase (s.length + 2) seen L s []
  unfold chunkWindowsEvents
  dsimp only
  cases h2 : (windowLoopEvents (s.length + 2) seen L s).2 with
  | none =>
    refine ⟨o1, k1, by simpa using p1, p2, ?_⟩
    intro L' ns' out e
    unfold decodeChunkWindows at e
    cases hw : windowLoop (s.length + 2) L s [] with
    | fault f => simp [hw] at e
    | error f => simp [hw] at e
    | done L1 r o =>
      simp only [hw] at he
      rw [h2] at he
      simp at he
  | some q =>
    obtain ⟨L1, r⟩ := q
    obtain ⟨q1, q2, q3⟩ := p3 _ _ h2
    obtain ⟨o2, k2, r1, r2⟩ := Room.appendNew hg (b := L1.text) q3
    have hops : L1.appendNewOps r = (if L1.text.length > 0 then
        (if L1.rem r > 0 then [OutOp.reserve (L1.text.length + L1.rem r)] else []) ++ [OutOp.append L1.text] else []) := by
      unfold Level.appendNewOps
      rw [targetBytesRemaining_eq q1]
      rfl
    refine ⟨o2, k2, pay_append_some p1 (by dsimp only; rw [hops]; exact r1), r2.ok, ?_⟩
    intro L' ns' out e
    unfold decodeChunkWindows at e
    cases hw : windowLoop (s.length + 2) L s [] with
    | fault f => simp [hw] at e
    | error f => simp [hw] at e
    | done L2 r' o =>
      simp only [hw, endChunk_eq, ChunkResult.ok.injEq] at e
      simp only [hw] at he
      rw [h2] at he
      simp only [Option.some.injEq, Prod.mk.injEq] at he
      obtain ⟨⟨rfl, rfl⟩, _⟩ := he
      obtain ⟨rfl, rfl, _⟩ := e
      exact ⟨rfl, r2⟩

theorem table_room {g : Growth} (hg : g.Steady) {L : Level} (hL : NodeInv L) (hc : L.cache ≠ none) (hw : L.win = none)
    (hpl : L.planned = none) (n : Level) (ns : List Level) (s : Bytes) {o : OutString} {k : Nat}
    (h : Room g o k 0 0) :
    ∃ o' k', pay g (o, k) (codeTableEvents L n ns s) = some (o', k') ∧ o'.Ok ∧
      ∀ L' ns' out, tableStep chunkRun L (n :: ns) s = .ok L' ns' out →
        (ns' ≠ [] → Room g o' k' 0 0) ∧ (ns' = [] → Room g o' k' 0 (L'.rem L'.unparsed)) := by
  unfold codeTableEvents tableStep
  rw [decodeChunk_eq]
  simp only
  cases chunkRun n ns s with
  | fault f => exact ⟨o, k, rfl, h.ok, by simp⟩
  | error n' o' => exact ⟨o, k, rfl, h.ok, by simp [failed]⟩
  | ok n' ns' text =>
    simp only
    unfold afterCodeTableChunk
    simp only
    split
    · refine ⟨o, k, rfl, h.ok, ?_⟩
      intro L' ns'' out e
      simp only [endChunk_eq, ChunkResult.ok.injEq] at e
      obtain ⟨_, rfl, _⟩ := e
      exact ⟨fun _ => h, fun h => by simp at h⟩
    · split
      · exact ⟨o, k, rfl, h.ok, by simp⟩
      · split
        · split
          · exact ⟨o, k, rfl, h.ok, by simp⟩
          · rename_i hlen _
            have hn := hL.closed_windows hw hc (if (CodeTable.ofBytes (L.tableString ++ text) hlen).validate
              ((L.cache.map AddrCache.lastMode).getD 0) = true then CodeTable.ofBytes (L.tableString ++ text) hlen else L.table) []
            obtain ⟨o', k', r1, r2, r3⟩ := windows_room hg false hn.inv hn.out hpl (s := s.drop (s.length - n'.unparsed.length)) (o := o) (k := k)
              (by simp only [Level.pend, hw]; exact h)
            refine ⟨o', k', r1, r2, ?_⟩
            intro L' ns'' out e
            obtain ⟨e1, e2⟩ := r3 _ _ _ e
            exact ⟨fun hx => absurd e1 hx, fun _ => e2⟩
        · exact ⟨o, k, rfl, h.ok, by simp⟩

/-- The bytes that will complete the window at hand, between two calls. -/
def Decoder.rem (d : Decoder) : Nat :=
  if d.top.started = true ∧ d.top.cache ≠ none ∧ d.nested = [] then d.top.rem d.top.unparsed else 0

theorem chunk_room {g : Growth} (hg : g.Steady) {d : Decoder} (hd : DecInv d) (data : Bytes) {o : OutString} {k : Nat}
    (h : Room g o k 0 d.rem) :
    ∃ o' k', pay g (o, k) (d.chunkEvents data) = some (o', k') ∧ o'.Ok ∧
      ∀ L' ns' out, d.decodeChunk data = .ok L' ns' out → Room g o' k' 0 (Decoder.rem { top := L', nested := ns' }) := by
  rw [decodeChunk_eq, chunkRun_eq]
  obtain ⟨L, ns⟩ := d
  unfold Decoder.chunkEvents chunkStep
  dsimp only
  by_cases hs : L.started = false
  · have hs' : (!L.started) = true := by rw [hs]; rfl
    rw [if_pos hs', if_pos hs]
    exact ⟨o, k, rfl, h.ok, by simp⟩
  · have hs' : ¬ (!L.started) = true := by simpa using hs
    rw [if_neg hs', if_neg hs]
    have hst : L.started = true := by simpa using hs
    obtain ⟨hch, hpl⟩ := hd hst
    have hnode := hch.node
    dsimp only at hpl hnode hch
    have hrem0 : ∀ (L' : Level) (ns' : List Level) (o' : OutString) (k' : Nat),
        (ns' ≠ [] → Room g o' k' 0 0) ∧ (ns' = [] → Room g o' k' 0 (L'.rem L'.unparsed)) →
        Room g o' k' 0 (Decoder.rem { top := L', nested := ns' }) := by
      intro L' ns' o' k' hh
      unfold Decoder.rem
      dsimp only
      split
      · rename_i h; exact hh.2 h.2.2
      · by_cases hns : ns' = []
        · exact (hh.2 hns).zero
        · exact hh.1 hns
    cases hc : L.cache with
    | some c =>
      have hcn : L.cache ≠ none := by rw [hc]; simp
      dsimp only
      cases ns with
      | nil =>
        dsimp only
        have hrem : Decoder.rem { top := L, nested := [] } = L.rem L.unparsed := by
          unfold Decoder.rem; rw [if_pos ⟨hst, hcn, rfl⟩]
        rw [hrem] at h
        obtain ⟨o', k', r1, r2, r3⟩ := windows_room hg (L.lengthRead L.unparsed).isSome hnode.inv hnode.out hpl
          (s := L.unparsed ++ data) (o := o) (k := k) (by
            unfold Level.pend
            split
            · exact h.zero
            · rename_i hx
              unfold Level.rem at h ⊢
              cases hw : L.win with
              | some w => simp only [hw] at h ⊢; exact h
              | none =>
                simp only [hw] at h hx ⊢
                cases hr : L.lengthRead L.unparsed with
                | none => simp [hr] at hx
                | some n =>
                  rw [hr] at h
                  rw [lengthRead_append hr]
                  exact h)
        refine ⟨o', k', r1, r2, ?_⟩
        intro L' ns' out e
        obtain ⟨e1, e2⟩ := r3 _ _ _ e
        exact hrem0 _ _ _ _ ⟨fun hx => absurd e1 hx, fun _ => e2⟩
      | cons n ns =>
        dsimp only
        obtain ⟨_, hwait, _, _⟩ := hch
        obtain ⟨o', k', r1, r2, r3⟩ := table_room hg hnode hcn hwait.win hpl n ns (L.unparsed ++ data) h.zero
        exact ⟨o', k', r1, r2, fun L' ns' out e => hrem0 _ _ _ _ (r3 _ _ _ e)⟩
    | none =>
      have hns := hch.none hc
      subst hns
      obtain ⟨f1, f2, f3⟩ := hnode.fresh hc
      dsimp only
      cases hr : readFileHeader (L.unparsed ++ data) with
      | error => exact ⟨o, k, rfl, h.ok, by simp [failed]⟩
      | endOfData =>
        refine ⟨o, k, rfl, h.ok, ?_⟩
        intro L' ns' out e
        simp only [endChunk_eq, ChunkResult.ok.injEq] at e
        obtain ⟨rfl, rfl, _⟩ := e
        have : Decoder.rem { top := L.ended (L.unparsed ++ data), nested := [] } = 0 := by
          unfold Decoder.rem
          rw [if_neg]
          intro hx
          exact hx.2.1 hc
        rw [this]
        exact h.zero
      | ok hdr rest =>
        obtain ⟨i1, i2, i3, i4, i5, i6, i7, i8, i9⟩ := withHeader_inv hnode hc hdr
        have hpl' : (L.withHeader hdr).planned = none := i9.planned.trans hpl
        obtain ⟨v, cs⟩ := hdr
        cases cs with
        | none =>
          obtain ⟨o', k', r1, r2, r3⟩ := windows_room hg false i1.inv i1.out hpl' (s := rest) (o := o) (k := k)
            (by simp only [Level.pend, i4]; exact h.zero)
          refine ⟨o', k', r1, r2, ?_⟩
          intro L' ns' out e
          obtain ⟨e1, e2⟩ := r3 _ _ _ e
          exact hrem0 _ _ _ _ ⟨fun hx => absurd e1 hx, fun _ => e2⟩
        | some p =>
          obtain ⟨near, same⟩ := p
          obtain ⟨o', k', r1, r2, r3⟩ := table_room hg i1 i2 i4 hpl' Level.forCodeTable [] rest h.zero
          exact ⟨o', k', r1, r2, fun L' ns' out e => hrem0 _ _ _ _ (r3 _ _ _ e)⟩

theorem chunk_erase {d : Decoder} (hd : DecInv d) (data : Bytes) :
    (∀ L' ns' out, d.decodeChunk data = .ok L' ns' out → out = textOf (d.chunkEvents data)) ∧
    (∀ L' out, d.decodeChunk data = .error L' out → out = textOf (d.chunkEvents data)) := by
  rw [decodeChunk_eq, chunkRun_eq]
  obtain ⟨L, ns⟩ := d
  unfold Decoder.chunkEvents chunkStep
  dsimp only
  by_cases hs : L.started = false
  · have hs' : (!L.started) = true := by rw [hs]; rfl
    rw [if_pos hs', if_pos hs]
    refine ⟨by simp, fun L' out e => ?_⟩
    simp only [ChunkResult.error.injEq] at e
    rw [← e.2]; rfl
  · have hs' : ¬ (!L.started) = true := by simpa using hs
    rw [if_neg hs', if_neg hs]
    have hst : L.started = true := by simpa using hs
    obtain ⟨hch, hpl⟩ := hd hst
    have hnode := hch.node
    dsimp only at hnode hch
    cases hc : L.cache with
    | some c =>
      dsimp only
      cases ns with
      | nil => exact windows_erase _ _ _
      | cons n ns =>
        obtain ⟨_, hwait, _, _⟩ := hch
        exact table_erase hwait.decoded n ns _
    | none =>
      have hns := hch.none hc
      subst hns
      obtain ⟨f1, f2, f3⟩ := hnode.fresh hc
      dsimp only
      cases hr : readFileHeader (L.unparsed ++ data) with
      | error =>
        refine ⟨by simp [failed], fun L' out e => ?_⟩
        rw [(failed_eq e).2]; rfl
      | endOfData =>
        refine ⟨fun L' ns' out e => ?_, by simp [endChunk]⟩
        simp only [endChunk_eq, ChunkResult.ok.injEq] at e
        rw [← e.2.2]
        simp [Level.text, f2, textOf, opsOf, appendedBy]
      | ok hdr rest =>
        obtain ⟨i1, i2, i3, i4, i5, i6, i7, i8, i9⟩ := withHeader_inv hnode hc hdr
        obtain ⟨v, cs⟩ := hdr
        cases cs with
        | none => exact windows_erase false _ _
        | some p => exact table_erase i3 _ _ _

/-! ### Calls -/

theorem call_room {g : Growth} (hg : g.Steady) {d : Decoder} (hd : DecInv d) (c : DecoderCall) {o : OutString} {k : Nat}
    (h : Room g o k 0 d.rem) :
    ∃ o' k', pay g (o, k) (match c with | .chunk data => d.chunkEvents data | _ => []) = some (o', k') ∧
      ∀ r d', d.call c = .ok (r, d') → Room g o' k' 0 d'.rem := by
  cases c with
  | start dict =>
    refine ⟨o, k, rfl, ?_⟩
    intro r d' e
    simp only [Decoder.call, Except.ok.injEq, Prod.mk.injEq] at e
    rw [← e.2]
    unfold Decoder.start
    by_cases hs : d.top.started = true
    · rw [if_pos hs]; exact h
    · rw [if_neg hs]
      have : Decoder.rem { top := d.top.start dict, nested := [] } = 0 := by
        unfold Decoder.rem
        rw [if_neg]
        intro hx
        exact hx.2.1 (by simp [Level.start, hs, Level.reset])
      rw [this]; exact h.zero
  | finish =>
    refine ⟨o, k, rfl, ?_⟩
    intro r d' e
    simp only [Decoder.call, Except.ok.injEq, Prod.mk.injEq] at e
    rw [← e.2]
    have : d.finish.2.rem = 0 := by
      unfold Decoder.rem
      rw [if_neg]
      intro hx
      exact hx.2.1 rfl
    rw [this]; exact h.zero
  | setMaxFile n =>
    refine ⟨o, k, rfl, ?_⟩
    intro r d' e
    simp only [Decoder.call, Except.ok.injEq, Prod.mk.injEq] at e
    rw [← e.2]
    exact h
  | setMaxWin n =>
    refine ⟨o, k, rfl, ?_⟩
    intro r d' e
    simp only [Decoder.call, Except.ok.injEq, Prod.mk.injEq] at e
    rw [← e.2]
    unfold Decoder.setMaxWin
    split
    · exact h
    · exact h
  | setAllowTarget b =>
    refine ⟨o, k, rfl, ?_⟩
    intro r d' e
    simp only [Decoder.call, Except.ok.injEq, Prod.mk.injEq] at e
    rw [← e.2]
    unfold Decoder.setAllowTarget
    split
    · exact h
    · rename_i hs
      have : Decoder.rem { top := { d.top with allowTarget := b }, nested := d.nested } = 0 := by
        unfold Decoder.rem
        rw [if_neg]
        intro hx
        exact hs hx.1
      rw [this]; exact h.zero
  | chunk data =>
    obtain ⟨o', k', r1, r2, r3⟩ := chunk_room hg hd data h
    refine ⟨o', k', r1, ?_⟩
    intro r d' e
    simp only [Decoder.call] at e
    cases hr : d.decodeChunk data with
    | fault f => simp [hr] at e
    | error L out =>
      simp only [hr, Except.ok.injEq, Prod.mk.injEq] at e
      rw [← e.2]
      have hstop : L.started = false := by
        by_cases hs : d.top.started = true
        · exact ((chunk_inv (hd hs).1 data).2.1 _ _ hr).stopped
        · have hs' : d.top.started = false := by simpa using hs
          rw [decodeChunk_eq, chunkRun_eq, chunkStep, if_pos hs'] at hr
          simp only [ChunkResult.error.injEq] at hr
          rw [← hr.1]; rfl
      have : Decoder.rem { top := L, nested := [] } = 0 := by
        unfold Decoder.rem
        rw [if_neg]
        intro hx
        rw [hstop] at hx
        exact absurd hx.1 (by simp)
      rw [this]
      exact ⟨r2, Or.inr (Or.inl ⟨rfl, r2⟩)⟩
    | ok L ns out =>
      simp only [hr, Except.ok.injEq, Prod.mk.injEq] at e
      rw [← e.2]
      exact r3 _ _ _ hr

theorem events_room {g : Growth} (hg : g.Steady) {d : Decoder} (hd : DecInv d) (cs : List DecoderCall) {o : OutString} {k : Nat}
    (h : Room g o k 0 d.rem) : ∃ p, pay g (o, k) (d.events cs) = some p := by
  induction cs generalizing d o k with
  | nil => exact ⟨_, rfl⟩
  | cons c cs ih =>
    obtain ⟨o', k', r1, r2⟩ := call_room hg hd c h
    unfold Decoder.events
    cases hc : d.call c with
    | error f => exact ⟨(o', k'), pay_append_some r1 rfl⟩
    | ok q =>
      obtain ⟨r, d'⟩ := q
      obtain ⟨p, hp⟩ := ih (hd.call hc) (r2 _ _ hc)
      exact ⟨p, pay_append_some r1 hp⟩

theorem events_text {d d' : Decoder} (hd : DecInv d) {cs : List DecoderCall} {rs : List DecoderReply}
    (h : d.calls cs = .ok (rs, d')) : textOf (d.events cs) = rs.flatMap (·.out) := by
  induction cs generalizing d rs with
  | nil =>
    simp only [Decoder.calls, Except.ok.injEq, Prod.mk.injEq] at h
    rw [← h.1]; rfl
  | cons c cs ih =>
    unfold Decoder.calls at h
    unfold Decoder.events
    cases h1 : d.call c with
    | error f => simp [h1] at h
    | ok p =>
      obtain ⟨r, d1⟩ := p
      simp only [h1] at h
      cases h2 : d1.calls cs with
      | error f => simp [h2] at h
      | ok q =>
        obtain ⟨rs', d2⟩ := q
        simp only [h2, Except.ok.injEq, Prod.mk.injEq] at h
        obtain ⟨rfl, rfl⟩ := h
        rw [textOf_append, ih (hd.call h1) h2, List.flatMap_cons]
        congr 1
        cases c with
        | chunk data =>
          obtain ⟨e1, e2⟩ := chunk_erase hd data
          simp only [Decoder.call] at h1
          cases hr : d.decodeChunk data with
          | fault f => simp [hr] at h1
          | error L out =>
            simp only [hr, Except.ok.injEq, Prod.mk.injEq] at h1
            rw [← h1.1]; exact (e2 _ _ hr).symm
          | ok L ns out =>
            simp only [hr, Except.ok.injEq, Prod.mk.injEq] at h1
            rw [← h1.1]; exact (e1 _ _ _ hr).symm
        | start _ | finish | setMaxFile _ | setMaxWin _ | setAllowTarget _ =>
          simp only [Decoder.call, Except.ok.injEq, Prod.mk.injEq] at h1
          rw [← h1.1]; rfl

end Vcd
