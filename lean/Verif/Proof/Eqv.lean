import Verif.Proof.Loop

/-!
# States that differ only in NOOPs not yet skipped
-/

namespace Vcd
open Spec

/-- The two interrupted states `(L, r)` and `(L', r')` differ at most in NOOPs at the front of the
open window's instruction section. -/
structure WinEqv (L : Level) (r : Bytes) (L' : Level) (r' : Bytes) : Prop where
  level : L' = { L with win := L'.win }
  rest : (L.win = none ∧ L'.win = none ∧ r = r') ∨
    ∃ w w', L.win = some w ∧ L'.win = some w' ∧ w'.hdr = w.hdr ∧ w'.pending = w.pending ∧
      r.drop w.expected = r'.drop w'.expected ∧ w.expected - r.length = w'.expected - r'.length ∧
      (w.pending = none →
        skipNoops L.table (r.take w.expected) = skipNoops L.table (r'.take w'.expected)) ∧
      (w.pending ≠ none → r.take w.expected = r'.take w'.expected)

theorem WinEqv.refl (L : Level) (r : Bytes) : WinEqv L r L r := by
  refine ⟨rfl, ?_⟩
  cases h : L.win with
  | none => exact Or.inl ⟨rfl, rfl, rfl⟩
  | some w => exact Or.inr ⟨w, w, rfl, rfl, rfl, rfl, rfl, rfl, fun _ => rfl, fun _ => rfl⟩

theorem WinEqv.symm {L L' : Level} {r r' : Bytes} (h : WinEqv L r L' r') : WinEqv L' r' L r := by
  have ht : L'.table = L.table := by rw [h.level]
  refine ⟨?_, ?_⟩
  · rw [h.level]
  · rcases h.rest with ⟨a, b, c⟩ | ⟨w, w', a, b, c, d, e, f, g, i⟩
    · exact Or.inl ⟨b, a, c.symm⟩
    · exact Or.inr ⟨w', w, b, a, c.symm, d.symm, e.symm, f.symm,
        fun hp => by rw [ht]; exact (g (d ▸ hp)).symm, fun hp => (i (d ▸ hp)).symm⟩

theorem WinEqv.trans {L L' L'' : Level} {r r' r'' : Bytes} (h : WinEqv L r L' r')
    (h' : WinEqv L' r' L'' r'') : WinEqv L r L'' r'' := by
  have ht : L'.table = L.table := by rw [h.level]
  refine ⟨?_, ?_⟩
  · have := h'.level
    rw [h.level] at this
    exact this
  · rcases h.rest with ⟨a, b, c⟩ | ⟨w, w', a, b, c, d, e, f, g, i⟩ <;>
    rcases h'.rest with ⟨a', b', c'⟩ | ⟨w1, w2, a', b', c', d', e', f', g', i'⟩
    · exact Or.inl ⟨a, b', c.trans c'⟩
    · rw [b] at a'; simp at a'
    · rw [b] at a'; simp at a'
    · rw [b] at a'
      simp only [Option.some.injEq] at a'
      subst a'
      rw [ht] at g'
      exact Or.inr ⟨w, w2, a, b', c'.trans c, d'.trans d, e.trans e', f.trans f',
        fun hp => (g hp).trans (g' (by rw [d]; exact hp)),
        fun hp => (i hp).trans (i' (by rw [d]; exact hp))⟩

/-- Appending the same bytes keeps two states equivalent. -/
theorem WinEqv.append {L L' : Level} {r r' : Bytes} (h : WinEqv L r L' r') (t : Bytes) :
    WinEqv L (r ++ t) L' (r' ++ t) := by
  refine ⟨h.level, ?_⟩
  rcases h.rest with ⟨a, b, c⟩ | ⟨w, w', a, b, c, d, e, f, g, i⟩
  · exact Or.inl ⟨a, b, by rw [c]⟩
  · refine Or.inr ⟨w, w', a, b, c, d, ?_, ?_, ?_, ?_⟩
    · rw [List.drop_append, List.drop_append, e, f]
    · rw [List.length_append, List.length_append]; omega
    · intro hp
      rw [List.take_append, List.take_append, f, skipNoops_append, skipNoops_append, g hp]
    · intro hp
      rw [List.take_append, List.take_append, f, i hp]

/-- `skipPair` is a normal form for the equivalence. -/
theorem winEqv_of_skipPair {L L' : Level} {r r' : Bytes} (h : skipPair L r = skipPair L' r') :
    WinEqv L r L' r' := by
  unfold skipPair at h
  cases hw : L.win with
  | none =>
    cases hw' : L'.win with
    | none =>
      simp only [hw, hw', Prod.mk.injEq] at h
      obtain ⟨rfl, rfl⟩ := h
      exact WinEqv.refl _ _
    | some w' =>
      simp only [hw, hw'] at h
      split at h
      · have := congrArg (fun x => x.1.win) h
        simp [hw] at this
      · have := congrArg (fun x => x.1.win) h
        simp [hw, hw'] at this
  | some w =>
    cases hw' : L'.win with
    | none =>
      simp only [hw, hw'] at h
      split at h
      · have := congrArg (fun x => x.1.win) h
        simp [hw'] at this
      · have := congrArg (fun x => x.1.win) h
        simp [hw, hw'] at this
    | some w' =>
      simp only [hw, hw'] at h
      by_cases hp : w.pending = none
      · by_cases hp' : w'.pending = none
        · rw [if_pos hp, if_pos hp'] at h
          simp only [Prod.mk.injEq] at h
          obtain ⟨h1, h2⟩ := h
          have hwin := congrArg Level.win h1
          simp only [Option.some.injEq] at hwin
          have hhdr := congrArg OpenWindow.hdr hwin
          have hexp := congrArg OpenWindow.expected hwin
          simp only at hhdr hexp
          have htab : L.table = L'.table := by
            have := congrArg Level.table h1
            exact this
          have hlev : L' = { L with win := L'.win } := by
            have := congrArg (fun l : Level => { l with win := L'.win }) h1
            simp only at this
            exact this.symm
          obtain ⟨p, hpr⟩ := skipNoops_suffix L.table (r.take w.expected)
          obtain ⟨p', hpr'⟩ := skipNoops_suffix L'.table (r'.take w'.expected)
          have l1 := congrArg List.length hpr
          have l2 := congrArg List.length hpr'
          rw [List.length_append] at l1 l2
          have m1 : (r.take w.expected).length = min w.expected r.length := List.length_take
          have m2 : (r'.take w'.expected).length = min w'.expected r'.length := List.length_take
          have hl := congrArg List.length h2
          rw [List.length_append, List.length_append, List.length_drop, List.length_drop] at hl
          have hlen : (skipNoops L.table (r.take w.expected)).length
              = (skipNoops L'.table (r'.take w'.expected)).length := by omega
          have hs := List.append_inj h2 hlen
          rw [← htab] at hs
          exact ⟨hlev, Or.inr ⟨w, w', hw, hw', hhdr.symm, by rw [hp, hp'], hs.2, by omega, fun _ => hs.1,
            fun h => absurd hp h⟩⟩
        · rw [if_pos hp, if_neg hp'] at h
          have := congrArg (fun x => x.1.win) h
          simp only [hw', Option.some.injEq] at this
          have := congrArg OpenWindow.pending this
          simp only at this
          rw [hp] at this
          exact absurd this.symm hp'
      · by_cases hp' : w'.pending = none
        · rw [if_neg hp, if_pos hp'] at h
          have := congrArg (fun x => x.1.win) h
          simp only [hw, Option.some.injEq] at this
          have := congrArg OpenWindow.pending this
          simp only at this
          rw [hp'] at this
          exact absurd this hp
        · rw [if_neg hp, if_neg hp'] at h
          simp only [Prod.mk.injEq] at h
          obtain ⟨rfl, rfl⟩ := h
          exact WinEqv.refl _ _

theorem skipPair_of_winEqv {L L' : Level} {r r' : Bytes} (h : WinEqv L r L' r') :
    skipPair L r = skipPair L' r' := by
  rcases h.rest with ⟨a, b, c⟩ | ⟨w, w', a, b, c, d, e, f, g, i⟩
  · have : L' = L := by
      have := h.level
      rw [b, ← a] at this
      exact this
    rw [this, c]
  · unfold skipPair
    simp only [a, b]
    have ht : L'.table = L.table := by rw [h.level]
    by_cases hp : w.pending = none
    · rw [if_pos hp, if_pos (by rw [d]; exact hp), ht, g hp, e]
      obtain ⟨p, hpr⟩ := skipNoops_suffix L.table (r.take w.expected)
      obtain ⟨p', hpr'⟩ := skipNoops_suffix L.table (r'.take w'.expected)
      have l1 := congrArg List.length hpr
      have l2 := congrArg List.length hpr'
      rw [List.length_append, List.length_take] at l1 l2
      rw [g hp] at l1
      congr 1
      rw [h.level]
      simp only [Level.mk.injEq, true_and, and_true, Option.some.injEq]
      obtain ⟨wh, we, wp⟩ := w
      obtain ⟨wh', we', wp'⟩ := w'
      simp only at c d f l1 l2
      simp only [OpenWindow.mk.injEq, c, d, true_and, and_true, List.length_take]
      have hdl := congrArg List.length e
      simp only [List.length_drop] at hdl
      omega
    · rw [if_neg hp, if_neg (by rw [d]; exact hp)]
      have hr : r = r' := by
        rw [← List.take_append_drop w.expected r, i hp, e, List.take_append_drop]
      have hdl := congrArg List.length e
      have htl := congrArg List.length (i hp)
      rw [List.length_take, List.length_take] at htl
      have hw : w' = w := by
        obtain ⟨wh, we, wp⟩ := w
        obtain ⟨wh', we', wp'⟩ := w'
        simp only at c d f htl
        simp only [OpenWindow.mk.injEq, c, d, true_and, and_true]
        rw [List.length_drop, List.length_drop] at hdl
        rw [hr] at htl f hdl
        simp only at hdl
        omega
      rw [hr]
      congr 1
      rw [h.level, b, hw, ← a]

/-- Equivalent results of `DecodeWindow`. -/
inductive WinResult.Eqv : WinResult → WinResult → Prop
  | fault (f : Fault) : Eqv (.fault f) (.fault f)
  | error : Eqv .error .error
  | ok (L : Level) (r : Bytes) : Eqv (.ok L r) (.ok L r)
  | endOfData {L L' : Level} {r r' : Bytes} (h : WinEqv L r L' r') :
      Eqv (.endOfData L r) (.endOfData L' r')

theorem WinResult.eqv_of_skip {x y : WinResult} (h : x.skip = y.skip) : x.Eqv y := by
  cases x <;> cases y <;> simp only [WinResult.skip] at h <;> first | contradiction | skip
  · injection h with h1 h2; subst h1; subst h2; constructor
  · injection h with h1 h2; exact .endOfData (winEqv_of_skipPair (Prod.ext h1 h2))
  · constructor
  · injection h with h1; subst h1; constructor

/-- Equivalent interrupted windows go on in the same way. -/
theorem dwb_inter_congr {L L' : Level} {w w' : OpenWindow} {c : AddrCache} {n m : Nat}
    (h : OpenInv L w c n m) (hlt : L.decoded.length < L.startPos + w.hdr.targetLen)
    (hL : L' = { L with win := L'.win }) (hh : w'.hdr = w.hdr)
    (hpe : w'.pending = w.pending) {s s' : Bytes}
    (hd : s.drop w.expected = s'.drop w'.expected)
    (hm : w.expected - s.length = w'.expected - s'.length)
    (hs1 : w.pending = none →
        skipNoops L.table (s.take w.expected) = skipNoops L.table (s'.take w'.expected))
    (hs2 : w.pending ≠ none → s.take w.expected = s'.take w'.expected) :
    (decodeWindowBody L w c s).skip = (decodeWindowBody L' w' c s').skip := by
  have henv : L'.env w'.hdr = L.env w.hdr := by rw [hL, hh]; rfl
  have hdec : L'.decoded = L.decoded := by rw [hL]
  have h' : OpenInv L' w' c n m := ⟨by rw [hh]; exact h.inter, by rw [henv, hdec]; exact h.win, h.cache⟩
  have hsk : (interBody L w c s).skip L.table = (interBody L' w' c s').skip L.table := by
    simp only [Body.skip, interBody, hpe, hdec]
    by_cases hp : w.pending = none
    · simp only [hp, if_true, hs1 hp]
    · simp only [hp, if_false, hs2 hp]
  have hrun := dwb_inter (L := L) (c := c) (s := s) h.inter
  have hrun' := dwb_inter (L := L') (c := c) (s := s') h'.inter
  have hcg := bodyRun_congr (env := L.env w.hdr) hsk (by
    have := h.win.start
    have h1 : (L.env w.hdr).startPos = L.startPos := rfl
    have h2 : (interBody L w c s).decoded = L.decoded := rfl
    have h3 : (L.env w.hdr).hdr = w.hdr := rfl
    rw [h2, targetBytesDecoded_eq this, h1, h3]
    rw [h1] at this
    omega)
  rw [henv] at hrun'
  rw [hrun, hrun']
  cases hR : bodyRun (L.env w.hdr) (interBody L w c s) with
  | error =>
    rw [hR] at hcg
    cases hR' : bodyRun (L.env w.hdr) (interBody L' w' c s') <;>
      rw [hR'] at hcg <;> simp [BodyResult.skip] at hcg
  | fault f =>
    rw [hR] at hcg
    cases hR' : bodyRun (L.env w.hdr) (interBody L' w' c s') <;>
      rw [hR'] at hcg <;> simp [BodyResult.skip] at hcg
    rw [hcg]
  | ok b2 =>
    rw [hR] at hcg
    cases hR' : bodyRun (L.env w.hdr) (interBody L' w' c s') <;>
      rw [hR'] at hcg <;> simp [BodyResult.skip] at hcg
    subst hcg
    simp only
    split
    · simp only [WinResult.skip, hd]
      rw [hL]; rfl
    · rfl
  | endOfData b2 =>
    rw [hR] at hcg
    cases hR' : bodyRun (L.env w.hdr) (interBody L' w' c s') with
    | ok _ => rw [hR'] at hcg; simp [BodyResult.skip] at hcg
    | error => rw [hR'] at hcg; simp [BodyResult.skip] at hcg
    | fault _ => rw [hR'] at hcg; simp [BodyResult.skip] at hcg
    | endOfData b3 =>
      rw [hR'] at hcg
      simp only [BodyResult.skip, BodyResult.endOfData.injEq] at hcg
      have henvT : (L.env w.hdr).table = L.table := rfl
      rw [henvT] at hcg
      obtain ⟨p2, hp2⟩ := ((bodyRun_inv _ (h.body s)).2.1 _ hR).2.2.2.1
      have hz2 := ((bodyRun_inv _ (h.body s)).2.1 _ hR).2.2.2.2.2
      have hb3 := h'.body s'
      rw [henv] at hb3
      obtain ⟨p3, hp3⟩ := ((bodyRun_inv _ hb3).2.1 _ hR').2.2.2.1
      have hz3 := ((bodyRun_inv _ hb3).2.1 _ hR').2.2.2.2.2
      have hp2' : s.take w.expected = p2 ++ b2.inst := hp2
      have hp3' : s'.take w'.expected = p3 ++ b3.inst := hp3
      have l2 := congrArg List.length hp2'
      have l3 := congrArg List.length hp3'
      rw [List.length_append] at l2 l3
      have s2 : (s.take w.expected).length - b2.inst.length = p2.length := by omega
      have s3 : (s'.take w'.expected).length - b3.inst.length = p3.length := by omega
      have hf2 := Body.skip_fields L.table b2
      have hf3 := Body.skip_fields L.table b3
      have hpend : b2.pending = b3.pending := by rw [← hf2.1, ← hf3.1, hcg]
      have hempty : b2.inst = [] ↔ b3.inst = [] := by
        have hik := congrArg Body.inst hcg
        unfold Body.skip at hik
        by_cases hpn : b2.pending = none
        · rw [if_pos hpn, if_pos (hpend ▸ hpn)] at hik
          simp only at hik
          constructor
          · intro h2
            rw [h2] at hik
            exact hz3 (hpend ▸ hpn) hik.symm
          · intro h3
            rw [h3] at hik
            exact hz2 hpn hik
        · rw [if_neg hpn, if_neg (hpend ▸ hpn)] at hik
          rw [hik]
      have lenst : (s.take w.expected).length = min w.expected s.length := List.length_take
      have lenrt : (s'.take w'.expected).length = min w'.expected s'.length := List.length_take
      have hpos23 : w.expected - p2.length > 0 ↔ w'.expected - p3.length > 0 := by
        have a2 : w.expected - p2.length = (w.expected - s.length) + b2.inst.length := by omega
        have a3 : w'.expected - p3.length = (w.expected - s.length) + b3.inst.length := by omega
        rw [a2, a3]
        constructor
        · intro hp
          by_cases h3 : b3.inst = []
          · rw [hempty.2 h3] at hp; simpa [h3] using hp
          · have := List.length_pos_iff.2 h3; omega
        · intro hp
          by_cases h2 : b2.inst = []
          · rw [hempty.1 h2] at hp; simpa [h2] using hp
          · have := List.length_pos_iff.2 h2; omega
      simp only [s2, s3]
      by_cases hpp : w.expected - p2.length > 0
      · rw [if_pos hpp, if_pos (hpos23.1 hpp)]
        simp only [WinResult.skip]
        have r2 : s.drop p2.length = b2.inst ++ s.drop w.expected := by
          have : s = p2 ++ (b2.inst ++ s.drop w.expected) := by
            rw [← List.append_assoc, ← hp2', List.take_append_drop]
          conv => lhs; rw [this]
          rw [List.drop_left']; rfl
        have r3 : s'.drop p3.length = b3.inst ++ s'.drop w'.expected := by
          have : s' = p3 ++ (b3.inst ++ s'.drop w'.expected) := by
            rw [← List.append_assoc, ← hp3', List.take_append_drop]
          conv => lhs; rw [this]
          rw [List.drop_left']; rfl
        rw [r2, r3, skipPair_suspended L w _ b2 _ (by omega)
            (fun hx => List.drop_eq_nil_of_le (by omega)),
          skipPair_suspended L' w' _ b3 _ (by omega)
            (fun hx => List.drop_eq_nil_of_le (by omega))]
        have hT : L'.table = L.table := by rw [hL]
        rw [hT, hcg, hd]
        have : w.expected - p2.length - b2.inst.length = w'.expected - p3.length - b3.inst.length := by omega
        rw [this]
        have hsus : ∀ e b, L'.suspended w' e b = L.suspended w e b := by
          intro e b
          unfold Level.suspended
          rw [hL, hh]
        rw [hsus]
      · rw [if_neg hpp, if_neg (fun hx => hpp (hpos23.2 hx))]

/-- Equivalent states go on in the same way. -/
theorem decodeWindow_congr {L L' : Level} (hL : LevelInv L) {s s' : Bytes}
    (h : WinEqv L s L' s') : (decodeWindow L s).Eqv (decodeWindow L' s') := by
  apply WinResult.eqv_of_skip
  rcases h.rest with ⟨a, b, c⟩ | ⟨w, w', a, b, c, d, e, f, g, i⟩
  · have : L' = L := by
      have := h.level
      rw [b, ← a] at this
      exact this
    rw [this, c]
  · obtain ⟨_, hlt, c0, n, m, hc, ho⟩ := hL.opened w a
    have hc' : L'.cache = some c0 := by rw [h.level]; exact hc
    rw [decodeWindow_some a ho.inter hc, decodeWindow_some b (by rw [c]; exact ho.inter) hc']
    exact dwb_inter_congr ho hlt h.level c d e f g i

theorem readHeader_nil (L : Level) : readHeader L [] = .endOfData := by
  unfold readHeader parseWinIndicator
  rfl

/-- Nothing happens without input. -/
def Level.Quiet (L : Level) : Prop := decodeWindow L [] = .endOfData L []

theorem quiet_closed {L : Level} (h : L.win = none) : L.Quiet := by
  unfold Level.Quiet; rw [decodeWindow_none h, readHeader_nil]

theorem execute_nil {env : BodyEnv} (hi : env.hdr.interleaved = true) (b : Body) (ty mode : UInt8)
    {size : Nat} (h0 : 0 < size) :
    execute env b ty size mode [] = .endOfData ∨ execute env b ty size mode [] = .error := by
  unfold execute
  simp only [hi, if_true]
  split
  · left; unfold decodeAdd; rw [if_pos (by simpa using h0)]
  · split
    · exact Or.inl rfl
    · split
      · unfold decodeCopy
        dsimp only
        rw [AddrCache.decodeAddress]
        split
        · rename_i heq
          exact Or.inr rfl
        · exact Or.inl rfl
        · rename_i heq
          split at heq <;> simp at heq
        · rename_i heq
          split at heq <;> simp at heq
      · exact Or.inr rfl

theorem bodyRun_nil {env : BodyEnv} (hi : env.hdr.interleaved = true) {b : Body} (hb : b.inst = [])
    (ht : Level.targetBytesDecoded env.startPos b.decoded < env.hdr.targetLen) :
    bodyRun env b = .endOfData b ∨ bodyRun env b = .error := by
  have hself : ∀ p, b.pending = p → { b with inst := [], pending := p } = b := by
    rintro p rfl
    rw [← hb]
  rw [bodyRun_eq, if_pos ht, hb]
  cases hp : b.pending with
  | none =>
    left
    simp only [getNextInstruction, fetchHalf]
    rw [hself _ hp]
  | some q =>
    simp only [getNextInstruction, fetchHalf]
    by_cases h0 : (env.table.second q).size = 0
    · left
      have hpv : parseVarint32 [] = .endOfData := rfl
      simp only [h0, if_true, hpv]
      rw [hself _ hp]
    · simp only [h0, if_false]
      split
      · exact Or.inr rfl
      · have hpos : 0 < (env.table.second q).size.toNat := by
          rcases Nat.eq_zero_or_pos (env.table.second q).size.toNat with hz | hz
          · exact absurd (UInt8.toNat_inj.1 (by simpa using hz)) h0
          · exact hz
        rcases execute_nil hi b (env.table.second q).inst (env.table.second q).mode hpos with h | h
        · rw [h]; exact Or.inl rfl
        · rw [h]; exact Or.inr rfl

/-- A state left behind by `DecodeWindow` needs input to go on. -/
theorem quiet_of_idle {L : Level} (hL : LevelInv L) {r : Bytes}
    (h : decodeWindow L r = .endOfData L r) : L.Quiet := by
  cases hw : L.win with
  | none => exact quiet_closed hw
  | some w =>
    obtain ⟨hex, hlt, c0, n, m, hc, ho⟩ := hL.opened w hw
    have hx := (decodeWindow_extend hL [] r).2.1
    rw [List.nil_append, h] at hx
    have heq := decodeWindow_some hw ho.inter hc []
    rw [dwb_inter ho.inter] at heq
    have ht : Level.targetBytesDecoded (L.env w.hdr).startPos (interBody L w c0 []).decoded
        < (L.env w.hdr).hdr.targetLen := by
      have := ho.win.start
      have h1 : (L.env w.hdr).startPos = L.startPos := rfl
      have h2 : (interBody L w c0 []).decoded = L.decoded := rfl
      have h3 : (L.env w.hdr).hdr = w.hdr := rfl
      rw [h2, targetBytesDecoded_eq this, h1, h3]
      rw [h1] at this
      omega
    rcases bodyRun_nil (env := L.env w.hdr) ho.inter (b := interBody L w c0 []) (by simp [interBody]) ht with hb | hb
    · rw [hb] at heq
      simp only [interBody, List.take_nil, List.length_nil, Nat.sub_zero, List.drop_nil] at heq
      rw [if_pos hex] at heq
      unfold Level.Quiet
      rw [heq]
      congr 1
      cases L
      simp_all [Level.suspended]
    · rw [hb] at heq
      have := hx heq
      simp at this

end Vcd
