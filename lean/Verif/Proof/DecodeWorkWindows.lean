import Verif.Proof.DecodeWork

/-! # C66: the steps for the windows of a chunk -/

namespace Vcd
open Spec

theorem decodeBodyW_steps (env : BodyEnv) (b : Body) (hs : env.startPos ≤ b.decoded.length) :
    (decodeBodyW env b).2 ≤ b.credit env + 3 + env.hdr.targetLen ∧
    (∀ b', (decodeBodyW env b).1 = .ok b' → b'.inst = [] ∧ b'.decoded.length = env.startPos + env.hdr.targetLen ∧
      SameSizes b.cache b'.cache) ∧
    ∀ b', (decodeBodyW env b).1 = .endOfData b' → (decodeBodyW env b).2 + 2 * b'.rem env ≤ b.credit env + 3 ∧
      b.decoded.length ≤ b'.decoded.length ∧ SameSizes b.cache b'.cache := by
  obtain ⟨h1, h2⟩ := bodyLoopW_steps env (2 * b.inst.length + 2) b hs
  unfold decodeBodyW
  rcases hx : bodyLoopW env (2 * b.inst.length + 2) b with ⟨x, n⟩
  rw [hx] at h1 h2
  dsimp only at h1 h2
  cases x with
  | error => exact ⟨by dsimp only; omega, by simp, by simp⟩
  | fault f => exact ⟨by dsimp only; omega, by simp, by simp⟩
  | endOfData b' =>
    refine ⟨by dsimp only; omega, by simp, fun b2 h => ?_⟩
    simp only [BodyResult.endOfData.injEq] at h
    subst h
    exact h2 _ (Or.inr rfl)
  | ok b' =>
    obtain ⟨k1, k2, k3⟩ := h2 b' (Or.inl rfl)
    dsimp only
    split
    · exact ⟨by dsimp only; omega, by simp, by simp⟩
    · rename_i ht
      have ht : Level.targetBytesDecoded env.startPos b'.decoded = env.hdr.targetLen := Decidable.not_not.1 ht
      have ht' : Level.targetBytesDecoded env.startPos b'.decoded = b'.decoded.length - env.startPos := szSub_eq (by omega)
      have hlen : b'.decoded.length = env.startPos + env.hdr.targetLen := by omega
      have hm : n + (if env.hdr.checksum.isSome = true then ((b'.decoded.drop env.startPos).take env.hdr.targetLen).length else 0) ≤
          b.credit env + 3 + env.hdr.targetLen := by
        split
        · rw [List.length_take]; omega
        · omega
      split
      · exact ⟨hm, by simp, by simp⟩
      split
      · exact ⟨hm, by simp, by simp⟩
      rename_i hi
      have hi : b'.inst = [] := Decidable.not_not.1 hi
      have hok : ∀ b2, BodyResult.ok b' = .ok b2 → b2.inst = [] ∧ b2.decoded.length = env.startPos + env.hdr.targetLen ∧
          SameSizes b.cache b2.cache := by
        intro b2 h
        simp only [BodyResult.ok.injEq] at h
        subst h
        exact ⟨hi, hlen, k3⟩
      split
      · exact ⟨hm, hok, by simp⟩
      split
      · exact ⟨hm, by simp, by simp⟩
      split
      · exact ⟨hm, by simp, by simp⟩
      · exact ⟨hm, hok, by simp⟩

/-- The number of bytes of the open window that have been decoded. -/
def Level.part (L : Level) : Nat := L.decoded.length - L.startPos

theorem decodeWindowBodyW_steps (L : Level) (w : OpenWindow) (c : AddrCache) (s : Bytes) (hs : L.startPos ≤ L.decoded.length) :
    (decodeWindowBodyW L w c s).2 ≤ 6 * s.length + 6 + 2 * (w.hdr.targetLen - L.part) + w.hdr.targetLen ∧
    (∀ L' r, (decodeWindowBodyW L w c s).1 = .ok L' r →
      (decodeWindowBodyW L w c s).2 + 6 * r.length ≤ 6 * s.length + 6 + 2 * (w.hdr.targetLen - L.part) + w.hdr.targetLen ∧
      r.length ≤ s.length ∧ L'.decoded.length = L.startPos + w.hdr.targetLen ∧ ∃ c', L'.cache = some c' ∧ SameSizes c c') ∧
    ∀ L' r, (decodeWindowBodyW L w c s).1 = .endOfData L' r →
      (decodeWindowBodyW L w c s).2 + 2 * (w.hdr.targetLen - L'.part) ≤ 6 * s.length + 6 + 2 * (w.hdr.targetLen - L.part) ∧
      L'.startPos = L.startPos ∧ L.decoded.length ≤ L'.decoded.length ∧ (∃ w', L'.win = some w' ∧ w'.hdr = w.hdr) ∧
      ∃ c', L'.cache = some c' ∧ SameSizes c c' := by
  have hp := pendingBit_le w.pending
  unfold decodeWindowBodyW
  dsimp only
  by_cases hi : w.hdr.interleaved = true
  · rw [if_pos hi]
    obtain ⟨h1, h2, h3⟩ := decodeBodyW_steps { table := L.table, hdr := w.hdr, startPos := L.startPos }
      { pending := w.pending, inst := s.take w.expected, data := [], addr := [], cache := c, decoded := L.decoded } hs
    simp only [Body.credit, Body.rem, List.length_nil] at h1 h2 h3
    have hl : (s.take w.expected).length ≤ s.length := by rw [List.length_take]; omega
    rcases hx : decodeBodyW { table := L.table, hdr := w.hdr, startPos := L.startPos }
      { pending := w.pending, inst := s.take w.expected, data := [], addr := [], cache := c, decoded := L.decoded } with ⟨x, n⟩
    rw [hx] at h1 h2 h3
    dsimp only at h1 h2 h3
    unfold Level.part
    cases x with
    | error => exact ⟨by dsimp only; omega, by simp, by simp⟩
    | fault f => exact ⟨by dsimp only; omega, by simp, by simp⟩
    | ok b' =>
      obtain ⟨k1, k2, k3⟩ := h2 b' rfl
      refine ⟨by dsimp only; omega, fun L' r h => ?_, by simp⟩
      simp only [WinResult.ok.injEq] at h
      obtain ⟨rfl, rfl⟩ := h
      refine ⟨?_, by rw [List.length_drop]; omega, k2, _, rfl, k3⟩
      rw [k1, List.length_drop, List.length_nil]; dsimp only; omega
    | endOfData b' =>
      obtain ⟨k1, k2, k3⟩ := h3 b' rfl
      dsimp only
      split
      · refine ⟨by dsimp only; omega, by simp, fun L' r h => ?_⟩
        simp only [WinResult.endOfData.injEq] at h
        obtain ⟨rfl, rfl⟩ := h
        exact ⟨by dsimp only; omega, rfl, k2, ⟨_, rfl, rfl⟩, _, rfl, k3⟩
      · exact ⟨by dsimp only; omega, by simp, by simp⟩
  · rw [if_neg hi]
    obtain ⟨h1, h2, h3⟩ := decodeBodyW_steps { table := L.table, hdr := w.hdr, startPos := L.startPos }
      { pending := w.pending, inst := (s.drop w.hdr.dataLen).take w.hdr.instLen, data := s.take w.hdr.dataLen, addr := (s.drop (w.hdr.dataLen + w.hdr.instLen)).take w.hdr.addrLen, cache := c, decoded := L.decoded } hs
    simp only [Body.credit, Body.rem] at h1 h2 h3
    have hl : 6 * ((s.drop w.hdr.dataLen).take w.hdr.instLen).length + (s.take w.hdr.dataLen).length +
        ((s.drop (w.hdr.dataLen + w.hdr.instLen)).take w.hdr.addrLen).length +
        6 * (s.drop (w.hdr.dataLen + w.hdr.instLen + w.hdr.addrLen)).length ≤ 6 * s.length := by
      simp only [List.length_take, List.length_drop]; omega
    rcases hx : decodeBodyW { table := L.table, hdr := w.hdr, startPos := L.startPos }
      { pending := w.pending, inst := (s.drop w.hdr.dataLen).take w.hdr.instLen, data := s.take w.hdr.dataLen, addr := (s.drop (w.hdr.dataLen + w.hdr.instLen)).take w.hdr.addrLen, cache := c, decoded := L.decoded } with ⟨x, n⟩
    rw [hx] at h1 h2 h3
    dsimp only at h1 h2 h3
    unfold Level.part
    cases x with
    | error => exact ⟨by dsimp only; omega, by simp, by simp⟩
    | fault f => exact ⟨by dsimp only; omega, by simp, by simp⟩
    | ok b' =>
      obtain ⟨k1, k2, k3⟩ := h2 b' rfl
      refine ⟨by dsimp only; omega, fun L' r h => ?_, by simp⟩
      simp only [WinResult.ok.injEq] at h
      obtain ⟨rfl, rfl⟩ := h
      exact ⟨by dsimp only; omega, by rw [List.length_drop]; omega, k2, _, rfl, k3⟩
    | endOfData b' => exact ⟨by dsimp only; omega, by simp, by simp⟩

/-- Clearing the address cache of a level takes at most `K` steps. -/
def CellsLe (K : Nat) (L : Level) : Prop := ∀ c, L.cache = some c → c.init ≠ none → c.cells ≤ K

theorem CellsLe.of_same {K : Nat} {L L' : Level} {c c' : AddrCache} (h : CellsLe K L) (hc : L.cache = some c)
    (hc' : L'.cache = some c') (hs : SameSizes c c') : CellsLe K L' := by
  intro c2 h2 h3
  rw [hc'] at h2
  simp only [Option.some.injEq] at h2
  subst h2
  have := h c hc (by
    unfold AddrCache.init at h3 ⊢
    rw [hs.1, hs.2] at h3
    split
    · rename_i hx
      rw [if_pos hx] at h3
      exact h3
    · simp)
  unfold AddrCache.cells at *
  rw [hs.1, hs.2]; exact this

/-- The number of bytes a decoder may still decode when its limit is `M`. -/
def Level.room (M : Nat) (L : Level) : Nat := L.owed + (M - L.total)

theorem decodeWindowW_steps {L : Level} (hL : LevelInv L) {K M : Nat} (hK : CellsLe K L)
    (hM : ∀ n, L.wouldExceed n = false → L.total + n ≤ M) (s : Bytes) :
    (decodeWindowW L s).2 ≤ 6 * s.length + 8 + K + 3 * L.room M + L.part ∧
    (∀ L' r, (decodeWindowW L s).1 = .ok L' r →
      (decodeWindowW L s).2 + 6 * r.length + 3 * L.decoded.length ≤ 6 * s.length + 8 + K + 3 * L'.decoded.length + L.part ∧
      (L.win = none → r.length + 6 ≤ s.length) ∧ CellsLe K L') ∧
    ∀ L' r, (decodeWindowW L s).1 = .endOfData L' r →
      (decodeWindowW L s).2 + L'.part + 3 * L.decoded.length ≤ 6 * s.length + 8 + K + 3 * L'.decoded.length + L.part ∧
      CellsLe K L' := by
  have hf := decodeWindowW_fst L s
  unfold decodeWindowW at hf ⊢
  cases hw : L.win with
  | none =>
    have hcl := hL.closed hw
    obtain ⟨g1, g2⟩ := ReadsAt.header L s
    have gf := readHeaderW_fst L s
    rw [hw] at hf
    dsimp only at hf ⊢
    rcases hx : readHeaderW L s with ⟨x, n⟩
    rw [hx] at g1 g2 gf hf
    dsimp only at g1 g2 gf hf
    cases x with
    | endOfData =>
      refine ⟨by dsimp only; omega, by simp, fun L' r h => ?_⟩
      simp only [WinResult.endOfData.injEq] at h
      obtain ⟨rfl, rfl⟩ := h
      exact ⟨by dsimp only; omega, hK⟩
    | error => exact ⟨by dsimp only; omega, by simp, by simp⟩
    | ok hdr rest =>
      have g3 := g2 hdr rest rfl
      obtain ⟨⟨pre, q1, q2⟩, _, _, _, _, q3, _⟩ := readHeader_ok gf.symm
      have hroom : hdr.targetLen ≤ L.room M := by
        have := hM _ q3
        unfold Level.room; omega
      have hlen : s.length = pre.length + rest.length := by rw [q1, List.length_append]
      dsimp only at hf ⊢
      cases hc : L.cache with
      | none => exact ⟨by dsimp only; omega, by simp, by simp⟩
      | some c =>
        rw [hc] at hf
        dsimp only at hf ⊢
        cases hcc : c.init with
        | none => exact ⟨by dsimp only; omega, by simp, by simp⟩
        | some c' =>
          rw [hcc] at hf
          have hcells := hK c hc (by rw [hcc]; simp)
          have hsz := init_sizes hcc
          dsimp only at hf ⊢
          obtain ⟨b1, b2, b3⟩ := decodeWindowBodyW_steps { L with total := L.total + hdr.targetLen, cache := some c, win := none }
            { hdr := hdr, expected := hdr.instLen, pending := none } c' rest (Nat.le_of_eq hcl)
          simp only [Level.part] at b1 b2 b3 ⊢
          refine ⟨by simp only [stepsThen_snd]; omega, fun L' r h => ?_, fun L' r h => ?_⟩
          · obtain ⟨k1, hpre, k2, c2, k3, k4⟩ := b2 L' r h
            refine ⟨by simp only [stepsThen_snd]; omega, fun _ => ?_, hK.of_same hc k3 (hsz.trans k4)⟩
            omega
          · obtain ⟨k1, k2, k3, ⟨w', k6, k7⟩, c2, k4, k5⟩ := b3 L' r h
            have hop := ((decodeWindow_eod hL (hf.symm.trans h)).1.inv.opened w' k6).2.1
            rw [k7] at hop
            exact ⟨by simp only [stepsThen_snd]; omega, hK.of_same hc k4 (hsz.trans k5)⟩
  | some w =>
    obtain ⟨_, ho, c0, n0, m0, hc, hop⟩ := hL.opened w hw
    rw [hw] at hf
    dsimp only at hf ⊢
    rw [if_neg (by rw [hop.inter]; simp)] at hf ⊢
    rw [hc] at hf ⊢
    dsimp only at hf ⊢
    have hs := hop.win
    have hle : L.startPos ≤ L.decoded.length := hop.win.start
    have hroom : w.hdr.targetLen ≤ L.room M + L.part := by
      unfold Level.room Level.owed Level.part
      rw [hw]; dsimp only; omega
    obtain ⟨b1, b2, b3⟩ := decodeWindowBodyW_steps L w c0 s hle
    have hroom2 : w.hdr.targetLen - L.part ≤ L.room M := by omega
    refine ⟨by simp only [stepsThen_snd]; omega, fun L' r h => ?_, fun L' r h => ?_⟩
    · obtain ⟨k1, hpre, k2, c2, k3, k4⟩ := b2 L' r h
      refine ⟨?_, by simp, hK.of_same hc k3 k4⟩
      simp only [stepsThen_snd]
      unfold Level.part at *
      omega
    · obtain ⟨k1, k2, k3, ⟨w', k6, k7⟩, c2, k4, k5⟩ := b3 L' r h
      refine ⟨?_, hK.of_same hc k4 k5⟩
      have hop := ((decodeWindow_eod hL (hf.symm.trans h)).1.inv.opened w' k6).2.1
      rw [k7] at hop
      simp only [stepsThen_snd]
      unfold Level.part at *
      omega

/-- The target size of a level is limited to `M`. -/
def Limited (M : Nat) (L : Level) : Prop := L.total ≤ M ∧ (L.maxFile = M ∨ L.planned = some M)

theorem Limited.exceed {M : Nat} {L : Level} (h : Limited M L) {n : Nat} (hn : L.wouldExceed n = false) : L.total + n ≤ M := by
  obtain ⟨_, h2, h3⟩ := wouldExceed_false hn
  rcases h.2 with h4 | h4
  · rw [← h4]; exact h3 (by rw [h4]; exact h.1)
  · exact h2 M h4 h.1

theorem Limited.step {M : Nat} {L L' : Level} (h : Limited M L) (hs : StepInv L L') : Limited M L' := by
  have hst := static_fields hs.stat
  rcases h.2 with h4 | h4
  · refine ⟨?_, Or.inl (hst.maxFile.trans h4)⟩
    have := hs.file (by rw [h4]; exact h.1)
    rw [hst.maxFile, h4] at this
    exact this
  · exact ⟨hs.plan M h4 h.1, Or.inr (hst.planned.trans h4)⟩

/-- The number of bytes decoded and not output yet. -/
def Level.unsent (L : Level) : Nat := L.decoded.length - L.outPos

theorem part_of_closed {L : Level} (h : LevelInv L) (hw : L.win = none) : L.part = 0 := by
  have := h.closed hw
  unfold Level.part; omega

theorem windowLoopW_steps {K M q : Nat} (hq : K + 9 ≤ 6 * q) (fuel : Nat) {L : Level} (hL : LevelInv L) (hK : CellsLe K L)
    (hM : Limited M L) (ho : L.outPos ≤ L.decoded.length) (s out : Bytes) :
    (windowLoopW fuel L s out).2 ≤ (6 + q) * s.length + (if L.win = none then K + 9 else 2 * (K + 9)) + 4 * L.room M + L.unsent + L.part ∧
    ∀ L' r o, (windowLoopW fuel L s out).1 = .done L' r o →
      (windowLoopW fuel L s out).2 + L'.part + 3 * L.unsent + 4 * out.length ≤
        (6 + q) * s.length + (if L.win = none then K + 9 else 2 * (K + 9)) + 4 * o.length + 3 * L'.unsent + L.part ∧ CellsLe K L' := by
  induction fuel generalizing L s out with
  | zero => exact ⟨Nat.zero_le _, fun _ _ _ h => by simp [windowLoopW] at h⟩
  | succ fuel ih =>
    have hc0 : K + 9 ≤ (if L.win = none then K + 9 else 2 * (K + 9)) := by split <;> omega
    have hq0 : (6 + q) * s.length = 6 * s.length + q * s.length := Nat.add_mul ..
    unfold windowLoopW
    split
    · refine ⟨by dsimp only; omega, fun L' r o h => ?_⟩
      simp only [WindowsResult.done.injEq] at h
      obtain ⟨rfl, rfl, rfl⟩ := h
      exact ⟨by dsimp only; omega, hK⟩
    · obtain ⟨h1, h2, h3⟩ := decodeWindowW_steps hL hK (fun n => hM.exceed) s
      have hf := decodeWindowW_fst L s
      rcases hx : decodeWindowW L s with ⟨x, n⟩
      rw [hx] at h1 h2 h3 hf
      dsimp only at h1 h2 h3 hf
      cases x with
      | fault f => exact ⟨by dsimp only; omega, by simp⟩
      | error => exact ⟨by dsimp only; omega, by simp⟩
      | endOfData L1 r1 =>
        obtain ⟨k1, k2⟩ := h3 L1 r1 rfl
        obtain ⟨_, _, _, d, e1, e2, _⟩ := decodeWindow_eod hL hf.symm
        refine ⟨by dsimp only; omega, fun L' r o h => ?_⟩
        simp only [WindowsResult.done.injEq] at h
        obtain ⟨rfl, rfl, rfl⟩ := h
        have : L1.decoded.length = L.decoded.length + d.length := by rw [e1, List.length_append]
        refine ⟨?_, k2⟩
        simp only [Level.unsent]
        omega
      | ok L1 r1 =>
        obtain ⟨k1, k2, k3⟩ := h2 L1 r1 rfl
        obtain ⟨hs, hw, ⟨pre, hp, _⟩, d, e1, e2, e3⟩ := decodeWindow_ok hL hf.symm
        have hd : L1.decoded.length = L.decoded.length + d.length := by rw [e1, List.length_append]
        have hr : r1.length ≤ s.length := by rw [hp, List.length_append]; omega
        have hM1 := hM.step hs
        have ho1 := hs.out ho
        have hroom : L1.room M + d.length = L.room M := by
          have : L1.owed = 0 := by unfold Level.owed; rw [hw]
          have := hM1.1
          have := hM.1
          unfold Level.room; omega
        have hq1 : (6 + q) * r1.length = 6 * r1.length + q * r1.length := Nat.add_mul ..
        have hq2 : (K + 9) + q * r1.length + (K + 9) ≤ q * s.length + (if L.win = none then K + 9 else 2 * (K + 9)) := by
          split
          · rename_i hn
            have := Nat.mul_le_mul_left q (k2 hn)
            rw [Nat.mul_add, Nat.mul_comm q 6] at this
            omega
          · have := Nat.mul_le_mul_left q hr
            omega
        have hpart1 := part_of_closed hs.inv hw
        dsimp only
        split
        · refine ⟨by dsimp only; omega, fun L' r o h => ?_⟩
          simp only [WindowsResult.done.injEq] at h
          obtain ⟨rfl, rfl, rfl⟩ := h
          refine ⟨?_, k3⟩
          simp only [Level.unsent]
          omega
        split
        · rename_i hat
          have hat : L1.allowTarget = false := by simpa using hat
          have hnext : L1.next = L1.flush := by unfold Level.next; rw [hat]; rfl
          have hsn := StepInv.next hs.inv hw
          rw [hnext] at hsn
          have hlen : L1.flush.2.length = L1.unsent := by simp [Level.flush, Level.unsent]
          obtain ⟨i1, i2⟩ := ih (L := L1.flush.1) hsn.inv (fun c hc => k3 c hc) (hM1.step hsn) (hsn.out ho1) r1 (out ++ L1.flush.2)
          rw [if_pos (show L1.flush.1.win = none from hw)] at i1 i2
          have hp2 : L1.flush.1.part = 0 := part_of_closed hsn.inv hw
          have hu2 : L1.flush.1.unsent = 0 := rfl
          have hr2 : L1.flush.1.room M = L1.room M := by
            unfold Level.room Level.owed
            rw [show L1.flush.1.win = L1.win from rfl, hw]; rfl
          refine ⟨?_, fun L' r o h => ?_⟩
          · simp only [stepsThen_snd, hlen]
            unfold Level.unsent at *
            omega
          · obtain ⟨j1, j2⟩ := i2 L' r o h
            rw [List.length_append, hlen] at j1
            refine ⟨?_, j2⟩
            simp only [stepsThen_snd, hlen]
            unfold Level.unsent at *
            omega
        · obtain ⟨i1, i2⟩ := ih (L := L1) hs.inv k3 hM1 ho1 r1 out
          rw [if_pos hw] at i1 i2
          refine ⟨?_, fun L' r o h => ?_⟩
          · simp only [stepsThen_snd]
            unfold Level.unsent at *
            omega
          · obtain ⟨j1, j2⟩ := i2 L' r o h
            refine ⟨?_, j2⟩
            simp only [stepsThen_snd]
            unfold Level.unsent at *
            omega

end Vcd
