import Verif.Model.WordSize
import Verif.Spec.WordSize
import Verif.Proof.DebugPlain

/-!
# Sums of sizes do not wrap around in the decoder
-/

namespace Vcd.Word
open Spec

theorem add_eq {W a b : Nat} (h : a + b < W) : add W a b = a + b := Nat.mod_eq_of_lt h

theorem sub_eq {W a b : Nat} (h : b ≤ a) : sub W a b = a - b := if_pos h

/-- The guard says what its name says. -/
theorem sumWouldOverflow2_iff {W a b : Nat} (hb : b < W) : sumWouldOverflow2 W a b = true ↔ W ≤ a + b := by
  unfold sumWouldOverflow2
  rw [sub_eq (by omega), decide_eq_true_eq]
  omega

theorem sumWouldOverflow4_iff {W a b c d : Nat} (hb : b < W) (hc : c < W) (hd : d < W) :
    sumWouldOverflow4 W a b c d = true ↔ W ≤ a + b + c + d := by
  unfold sumWouldOverflow4
  rw [Bool.or_eq_true, Bool.or_eq_true, sumWouldOverflow2_iff hb, sumWouldOverflow2_iff hc, sumWouldOverflow2_iff hd]
  by_cases h1 : W ≤ a + b
  · exact ⟨fun _ => by omega, fun _ => Or.inl (Or.inl h1)⟩
  rw [add_eq (by omega)]
  by_cases h2 : W ≤ a + b + c
  · exact ⟨fun _ => by omega, fun _ => Or.inl (Or.inr h2)⟩
  rw [add_eq (by omega)]
  omega

theorem parseSize_le {s r : Bytes} {v : Nat} (h : parseSize s = .ok v r) : v ≤ 2147483647 := by
  obtain ⟨_, _, _, _, h⟩ := (parseInt32_ok_iff _ _ _).1 h
  exact h

theorem bind_congr {α β : Type} {p : Parsed α} {f g : α → Bytes → Parsed β} (h : ∀ v r, p = .ok v r → f v r = g v r) :
    p.bind f = p.bind g := by
  cases p with
  | ok v r => exact h v r rfl
  | endOfData => rfl
  | error => rfl

/-! ### The header -/

theorem parseSourceSegment_eq {W : Nat} (hW : 4294967296 ≤ W) (n : Nat) (s : Bytes) :
    parseSourceSegment W n s = Vcd.parseSourceSegment n s := by
  unfold parseSourceSegment Vcd.parseSourceSegment
  apply bind_congr
  intro len r hl
  have := parseSize_le hl
  split
  · rfl
  apply bind_congr
  intro pos r' hp
  have := parseSize_le hp
  rw [add_eq (by omega)]

theorem parseWinIndicator_eq {W : Nat} (hW : 4294967296 ≤ W) (a b : Nat) (t : Bool) (s : Bytes) :
    parseWinIndicator W a b t s = Vcd.parseWinIndicator a b t s := by
  unfold parseWinIndicator Vcd.parseWinIndicator
  simp only [parseSourceSegment_eq hW]

theorem parseSectionLengths_eq {W : Nat} (hW : 4294967296 ≤ W) (c : Bool) {deltaLen : Nat} (hd : deltaLen ≤ 2147483647)
    (deltaStart s : Bytes) : parseSectionLengths W c deltaLen deltaStart s = Vcd.parseSectionLengths c deltaLen deltaStart s := by
  unfold parseSectionLengths Vcd.parseSectionLengths
  apply bind_congr
  intro d r1 h1
  have := parseSize_le h1
  apply bind_congr
  intro i r2 h2
  have := parseSize_le h2
  apply bind_congr
  intro a r3 h3
  have := parseSize_le h3
  apply bind_congr
  intro ck r4 _
  simp only
  by_cases h : W ≤ deltaStart.length - r4.length + d + i + a
  · rw [if_pos ((sumWouldOverflow4_iff (by omega) (by omega) (by omega)).2 h), if_pos (by omega)]
  · rw [if_neg (fun hx => h ((sumWouldOverflow4_iff (by omega) (by omega) (by omega)).1 hx)), add_eq (a := deltaStart.length - r4.length) (by omega),
      add_eq (a := deltaStart.length - r4.length + d) (by omega), add_eq (by omega)]

/-- The sections are no longer than the delta encoding. -/
theorem sections_le {c : Bool} {deltaLen : Nat} {deltaStart s r : Bytes} {v : SectionLengths}
    (h : Vcd.parseSectionLengths c deltaLen deltaStart s = .ok v r) :
    deltaStart.length - r.length + (v.dataLen + v.instLen + v.addrLen) = deltaLen := by
  unfold Vcd.parseSectionLengths at h
  obtain ⟨d, r1, _, h⟩ := Parsed.bind_eq_ok.1 h
  obtain ⟨i, r2, _, h⟩ := Parsed.bind_eq_ok.1 h
  obtain ⟨a, r3, _, h⟩ := Parsed.bind_eq_ok.1 h
  obtain ⟨k, r4, _, h⟩ := Parsed.bind_eq_ok.1 h
  simp only at h
  split at h
  · simp at h
  · rename_i hx
    simp only [Parsed.ok.injEq] at h
    obtain ⟨rfl, rfl⟩ := h
    simp only [ne_eq, Decidable.not_not] at hx ⊢
    omega

/-- The sizes that a decoder keeps are in the range of `size_t`, and so is all that it is allowed to decode. -/
structure Fits (W : Nat) (L : Level) : Prop where
  file : L.maxFile < W
  plan : L.InPlan
  room : L.total ≤ L.maxFile
  text : L.decoded.length + L.owed ≤ L.total

theorem wouldExceed_eq {W : Nat} {L : Level} (h : Fits W L) (n : Nat) : wouldExceed W L n = L.wouldExceed n := by
  unfold wouldExceed Level.wouldExceed
  rw [sub_eq h.room, szSub_eq h.room]
  congr 2
  cases hp : L.planned with
  | none => rfl
  | some p =>
    simp only
    rw [sub_eq (h.plan p hp), szSub_eq (h.plan p hp)]

/-- A header without a fault. -/
def lift : Parsed WinHeader → Parsed (Except Fault WinHeader)
  | .ok h r => .ok (.ok h) r
  | .endOfData => .endOfData
  | .error => .error

theorem lift_bind {α : Type} (p : Parsed α) (f : α → Bytes → Parsed WinHeader) :
    lift (p.bind f) = p.bind fun v r => lift (f v r) := by
  cases p <;> rfl

/-- The source segment is where the header says. -/
theorem segment_inside {a b : Nat} {t : Bool} {s r : Bytes} {isp : UInt8 × Nat × Nat}
    (h : Vcd.parseWinIndicator a b t s = .ok isp r) :
    (isp.1 &&& vcdSource ≠ 0 → isp.2.2 + isp.2.1 ≤ a) ∧ (isp.1 &&& vcdSource = 0 → isp.1 &&& vcdTarget ≠ 0 → isp.2.2 + isp.2.1 ≤ b) ∧
    (isp.1 &&& vcdSource = 0 → isp.1 &&& vcdTarget = 0 → isp.2.1 = 0) := by
  have seg : ∀ {n : Nat} {s r : Bytes} {lp : Nat × Nat}, Vcd.parseSourceSegment n s = .ok lp r → lp.2 + lp.1 ≤ n := by
    intro n s r lp h
    unfold Vcd.parseSourceSegment at h
    obtain ⟨l, r1, _, h⟩ := Parsed.bind_eq_ok.1 h
    split at h
    · simp at h
    obtain ⟨p, r2, _, h⟩ := Parsed.bind_eq_ok.1 h
    split at h
    · simp at h
    split at h
    · simp at h
    simp only [Parsed.ok.injEq] at h
    rw [← h.1]
    simp only
    omega
  have bits : ∀ x : UInt8, (x &&& (vcdSource ||| vcdTarget) = vcdSource → x &&& vcdSource ≠ 0) ∧
      (x &&& (vcdSource ||| vcdTarget) = vcdTarget → x &&& vcdSource = 0 ∧ x &&& vcdTarget ≠ 0) ∧
      (x &&& (vcdSource ||| vcdTarget) ≠ vcdSource → x &&& (vcdSource ||| vcdTarget) ≠ vcdTarget →
        x &&& (vcdSource ||| vcdTarget) ≠ vcdSource ||| vcdTarget → x &&& vcdSource = 0 ∧ x &&& vcdTarget = 0) := by
    apply forall_byte
    decide +kernel
  unfold Vcd.parseWinIndicator at h
  obtain ⟨ind, r1, _, h⟩ := Parsed.bind_eq_ok.1 h
  obtain ⟨b1, b2, b3⟩ := bits ind
  simp only at h
  split at h
  · rename_i hs
    obtain ⟨lp, r2, h1, h⟩ := Parsed.bind_eq_ok.1 h
    simp only [Parsed.ok.injEq] at h
    rw [← h.1]
    exact ⟨fun _ => seg h1, fun hx => absurd hx (b1 hs), fun hx => absurd hx (b1 hs)⟩
  split at h
  · rename_i hs
    split at h
    · simp at h
    obtain ⟨lp, r2, h1, h⟩ := Parsed.bind_eq_ok.1 h
    simp only [Parsed.ok.injEq] at h
    rw [← h.1]
    exact ⟨fun hx => absurd (b2 hs).1 hx, fun _ _ => seg h1, fun _ hx => absurd hx (b2 hs).2⟩
  split at h
  · simp at h
  · rename_i k1 k2 k3
    obtain ⟨e1, e2⟩ := b3 k1 k2 k3
    simp only [Parsed.ok.injEq] at h
    rw [← h.1]
    exact ⟨fun hx => absurd e1 hx, fun _ hx => absurd e2 hx, fun _ _ => rfl⟩

theorem readHeader_eq {W : Nat} (hW : 4294967296 ≤ W) {L : Level} (h : Fits W L) (s : Bytes) :
    readHeader W L s = lift (Vcd.readHeader L s) := by
  unfold readHeader Vcd.readHeader
  rw [parseWinIndicator_eq hW, lift_bind]
  apply bind_congr
  intro isp r1 h1
  obtain ⟨g1, g2, g3⟩ := segment_inside h1
  simp only
  rw [lift_bind]
  apply bind_congr
  intro dl r2 h2
  have hdl := parseSize_le h2
  rw [lift_bind]
  apply bind_congr
  intro tl r3 h3
  rw [wouldExceed_eq h]
  by_cases he : L.wouldExceed tl = true
  · rw [if_pos he, if_pos he]; rfl
  rw [if_neg he, if_neg he, lift_bind]
  apply bind_congr
  intro u r4 h4
  rw [parseSectionLengths_eq hW _ hdl, lift_bind]
  apply bind_congr
  intro v r5 h5
  have hs := sections_le h5
  rw [add_eq (a := v.dataLen) (by omega), add_eq (by omega)]
  by_cases hx : (!(L.allowExtensions && v.dataLen == 0 && v.addrLen == 0) && decide (r5.length < v.dataLen + v.instLen + v.addrLen)) = true
  · rw [if_pos hx, if_pos hx]; rfl
  rw [if_neg hx, if_neg hx, if_neg hx, if_neg (by simp [hs])]
  have hsrc : ¬ (if isp.1 &&& vcdSource ≠ 0 then L.dict.drop isp.2.2 else if isp.1 &&& vcdTarget ≠ 0 then L.decoded.drop isp.2.2 else []).length < isp.2.1 := by
    split
    · rename_i k
      have := g1 k
      rw [List.length_drop]
      omega
    · rename_i k
      simp only [ne_eq, Decidable.not_not] at k
      split
      · rename_i k2
        have := g2 k k2
        rw [List.length_drop]
        omega
      · rename_i k2
        simp only [ne_eq, Decidable.not_not] at k2
        rw [g3 k k2]
        exact Nat.not_lt_zero _
  rw [if_neg hsrc]
  rfl

/-! ### The body -/

theorem appendTarget_eq {W : Nat} {env : BodyEnv} (h : env.startPos + env.hdr.targetLen < W) (d b : Bytes) :
    appendTarget W env d b = Vcd.appendTarget env d b := by
  unfold appendTarget Vcd.appendTarget BodyEnv.reserved
  rw [add_eq h]

theorem copyTarget_eq {W : Nat} {env : BodyEnv} (h : env.startPos + env.hdr.targetLen < W) (fuel : Nat) (d : Bytes)
    {address tbd size : Nat} (ha : address ≤ tbd) (hs : tbd + size < W) :
    copyTarget W env fuel d address tbd size = Vcd.copyTarget env fuel d address tbd size := by
  induction fuel generalizing d address tbd size with
  | zero => rfl
  | succ fuel ih =>
    rw [copyTarget, Vcd.copyTarget, sub_eq ha, szSub_eq ha]
    by_cases hc : size > tbd - address
    · rw [if_pos hc, if_pos hc]
      simp only [appendTarget_eq h, bind, Except.bind]
      rw [add_eq (a := address) (by omega), add_eq (a := tbd) (by omega), sub_eq (by omega)]
      cases readRange d (env.startPos + address) (tbd - address) with
      | error f => rfl
      | ok bytes =>
        simp only
        cases Vcd.appendTarget env d bytes with
        | error f => rfl
        | ok d' =>
          simp only
          exact ih _ (by omega) (by omega)
    · rw [if_neg hc, if_neg hc]
      simp only [appendTarget_eq h]

theorem copyBytes_eq {W : Nat} {env : BodyEnv} (h : env.startPos + env.hdr.targetLen < W) (d : Bytes) {tbd address size : Nat}
    (ha : address < env.hdr.srcLen + tbd) (h2 : env.hdr.srcLen + tbd + size < W) :
    copyBytes W env d tbd address size = Vcd.copyBytes env d tbd address size := by
  unfold copyBytes Vcd.copyBytes
  rw [add_eq (a := address) (by omega)]
  by_cases h1 : address + size ≤ env.hdr.srcLen
  · rw [if_pos h1, if_pos h1]
    simp only [appendTarget_eq h]
  rw [if_neg h1, if_neg h1]
  by_cases h3 : address < env.hdr.srcLen
  · rw [if_pos h3, if_pos h3]
    simp only [appendTarget_eq h, bind, Except.bind]
    rw [sub_eq (a := env.hdr.srcLen) (by omega), add_eq (a := address) (by omega), sub_eq (a := address + _) (by omega), add_eq (by omega),
      sub_eq (by omega)]
    cases readRange env.hdr.source address (env.hdr.srcLen - address) with
    | error f => rfl
    | ok bytes =>
      simp only
      cases Vcd.appendTarget env d bytes with
      | error f => rfl
      | ok d' =>
        simp only
        rw [show address + (env.hdr.srcLen - address) - env.hdr.srcLen = 0 by omega]
        exact copyTarget_eq h _ _ (by omega) (by omega)
  · rw [if_neg h3, if_neg h3, sub_eq (by omega)]
    exact copyTarget_eq h _ _ (by omega) (by omega)

theorem execute_eq {W : Nat} (hW : 4294967296 ≤ W) {env : BodyEnv} {b : Body} {n m : Nat} (hb : BodyInv env n m b)
    (h : env.startPos + env.hdr.targetLen < W) {ty : UInt8} {sz : Nat} {mode : UInt8} {r : Bytes}
    (hsz : sz + (b.decoded.length - env.startPos) ≤ env.hdr.targetLen) :
    execute W env b ty sz mode r = Vcd.execute env b ty sz mode r := by
  have h1 := hb.win.srcLe
  have h2 := hb.win.tgtLe
  have h3 := hb.win.start
  unfold execute Vcd.execute decodeAdd Vcd.decodeAdd decodeRun Vcd.decodeRun
  simp only [appendTarget_eq h]
  split
  · rfl
  split
  · rfl
  split
  · unfold decodeCopy Vcd.decodeCopy targetBytesDecoded
    simp only [targetBytesDecoded_eq h3, sub_eq h3]
    rw [add_eq (by omega)]
    have hda := decodeAddress_cases hb.cache
      (here := toInt32 (env.hdr.srcLen + (b.decoded.length - env.startPos))) (mode := mode.toNat)
      (stream := if env.hdr.interleaved = true then r else b.addr)
    cases h' : b.cache.decodeAddress (toInt32 (env.hdr.srcLen + (b.decoded.length - env.startPos))) mode.toNat
      (if env.hdr.interleaved = true then r else b.addr) with
    | error => rfl
    | endOfData => rfl
    | fault f => rfl
    | ok a rest c' =>
      simp only
      obtain ⟨ha, _⟩ := hda.1 _ _ _ h'
      have hlt : a < env.hdr.srcLen + (b.decoded.length - env.startPos) := by
        by_cases hle : env.hdr.srcLen + (b.decoded.length - env.startPos) ≤ 2147483647
        · rw [toInt32_of_lt hle] at ha; omega
        · have := toInt32_neg (n := env.hdr.srcLen + (b.decoded.length - env.startPos))
            (by omega) (by have := hb.win.room; omega)
          omega
      rw [copyBytes_eq h _ hlt (by omega)]
  · rfl

theorem bodyLoop_eq {W : Nat} (hW : 4294967296 ≤ W) {env : BodyEnv} {n m : Nat} (h : env.startPos + env.hdr.targetLen < W)
    (fuel : Nat) {b : Body} (hb : BodyInv env n m b) : bodyLoop W env fuel b = Vcd.bodyLoop env fuel b := by
  induction fuel generalizing b with
  | zero => rfl
  | succ fuel ih =>
    have h3 := hb.win.start
    have h4 := hb.win.room
    have h5 := hb.win.tgtLe
    simp only [bodyLoop, Vcd.bodyLoop, targetBytesDecoded, targetBytesDecoded_eq h3, sub_eq h3]
    by_cases ht : b.decoded.length - env.startPos < env.hdr.targetLen
    · rw [if_pos ht, if_pos ht]
      cases hg : getNextInstruction env.table b.pending b.inst with
      | endOfData r p => rfl
      | error => rfl
      | inst ty sz mode r p =>
        simp only
        by_cases hs : sz > env.hdr.targetLen
        · rw [if_pos (Or.inl hs), if_pos (Or.inl hs)]
        rw [add_eq (by omega)]
        by_cases hs2 : sz > env.hdr.targetLen ∨ sz + (b.decoded.length - env.startPos) > env.hdr.targetLen
        · rw [if_pos hs2, if_pos hs2]
        rw [if_neg hs2, if_neg hs2, execute_eq hW hb h (by omega)]
        cases he : Vcd.execute env b ty sz mode r with
        | endOfData => rfl
        | error => rfl
        | fault f => rfl
        | ok rest c d =>
          simp only
          apply ih
          obtain ⟨k1, bytes, rfl, k2⟩ := (execute_inv hb.win hb.cache (by omega)).1 _ _ _ he
          obtain ⟨e1, e2⟩ := afterExec_cache env b ty r p rest c (b.decoded ++ bytes)
          refine ⟨?_, by rw [e1]; exact k1⟩
          rw [e2]
          exact hb.win.append _ (by omega)
    · rw [if_neg ht, if_neg ht]

theorem decodeBody_eq {W : Nat} (hW : 4294967296 ≤ W) {env : BodyEnv} {n m : Nat} (h : env.startPos + env.hdr.targetLen < W)
    {b : Body} (hb : BodyInv env n m b) : decodeBody W env b = Vcd.decodeBody env b := by
  unfold decodeBody Vcd.decodeBody
  rw [bodyLoop_eq hW h _ hb]
  cases hr : Vcd.bodyLoop env (2 * b.inst.length + 2) b with
  | ok b' =>
    have := ((bodyRun_inv b hb).1 b' hr).1.win.start
    simp only [targetBytesDecoded, targetBytesDecoded_eq this, sub_eq this]
  | endOfData b' => rfl
  | error => rfl
  | fault f => rfl

theorem decodeWindowBody_eq {W : Nat} (hW : 4294967296 ≤ W) {L : Level} {w : OpenWindow} {c : AddrCache} {n m : Nat}
    (h : L.startPos + w.hdr.targetLen < W) (hw : WinInv (L.env w.hdr) L.decoded) (hc : CacheOk c n m) (s : Bytes) :
    decodeWindowBody W L w c s = Vcd.decodeWindowBody L w c s := by
  unfold decodeWindowBody Vcd.decodeWindowBody
  simp only
  split
  · rw [decodeBody_eq (n := n) (m := m) hW h ⟨hw, hc⟩]
    split <;> simp_all
  · rw [decodeBody_eq (n := n) (m := m) hW h ⟨hw, hc⟩]
    split <;> simp_all

/-! ### Windows -/

theorem decodeWindow_eq {W : Nat} (hW : 4294967296 ≤ W) {L : Level} (hL : LevelInv L) (h : Fits W L) (s : Bytes) :
    decodeWindow W L s = Vcd.decodeWindow L s := by
  unfold decodeWindow Vcd.decodeWindow
  have hf := h.file
  have hr := h.room
  have ht := h.text
  cases hw : L.win with
  | none =>
    simp only
    rw [readHeader_eq hW h]
    cases hh : Vcd.readHeader L s with
    | endOfData => rfl
    | error => rfl
    | ok hdr rest =>
      simp only [lift]
      have hwin := newWindow_inv hL hw hh
      have hx := (wouldExceed_false (readHeader_ok hh).2.2.2.2.2.1).2.2 hr
      have hsp := hL.closed hw
      cases hc : L.cache with
      | none => rfl
      | some c0 =>
        simp only [Option.bind_some]
        cases hci : c0.init with
        | none => rfl
        | some c =>
          simp only
          obtain ⟨m, hcok⟩ := (hL.cache _ hc).init hci
          rw [add_eq (by omega)]
          refine decodeWindowBody_eq hW ?_ hwin hcok rest
          change L.startPos + hdr.targetLen < W
          omega
  | some w =>
    simp only
    obtain ⟨_, hlen, c, n, m, hc', ho⟩ := hL.opened w hw
    rw [hc']
    simp only
    split
    · rfl
    · refine decodeWindowBody_eq hW ?_ ho.win ho.cache s
      simp only [Level.owed, hw] at ht
      omega

theorem Fits.done {W : Nat} {L : Level} (hL : LevelInv L) (hi : Fits W L) {s r : Bytes} {L' : Level} (h : Vcd.decodeWindow L s = .ok L' r) :
    Fits W L' := by
  obtain ⟨i1, i2, _, d, i4, i5, i6⟩ := decodeWindow_ok hL h
  have hs := static_fields i1.stat
  have hf := hi.file
  refine ⟨by rw [hs.maxFile]; exact hf, ?_, i1.file hi.room, ?_⟩
  · intro p hp
    rw [hs.planned] at hp
    exact i1.plan p hp (hi.plan p hp)
  · have : L'.owed = 0 := by simp [Level.owed, i2]
    have := hi.text
    rw [i4, List.length_append]
    omega

theorem Fits.next {W : Nat} {L : Level} (hi : Fits W L) (hw : L.win = none) : Fits W L.next.1 := by
  obtain ⟨n1, n2, n3, _⟩ := next_fields L
  have hs := static_fields (next_static L)
  refine ⟨by rw [hs.maxFile]; exact hi.file, ?_, by rw [n1, hs.maxFile]; exact hi.room, ?_⟩
  · intro p hp
    rw [n1]
    exact hi.plan p (hs.planned ▸ hp)
  · rw [n1, next_owed hw]
    have := hi.text
    have : L.next.1.decoded.length ≤ L.decoded.length := by
      unfold Level.next
      split <;> simp [Level.flush]
    omega

theorem Fits.eod {W : Nat} {L : Level} (hL : LevelInv L) (hi : Fits W L) {s r : Bytes} {L' : Level}
    (h : Vcd.decodeWindow L s = .endOfData L' r) : Fits W L' := by
  rcases (decodeWindow_inv hL s).2.1 _ _ h with ⟨_, rfl, _⟩ | ⟨k1, _, ⟨c, d, w, sp, tot, k2, k3, k4, k5, _⟩, k6, k7⟩
  · exact hi
  · have hs := static_fields (L := L) (L' := L') (by rw [k3]; rfl)
    have htt : L'.total = tot := by rw [k3]; rfl
    have hlim : L'.total ≤ L.maxFile ∧ ∀ p, L.planned = some p → L'.total ≤ p := by
      cases hw : L.win with
      | some w => rw [(k7 w hw).1]; exact ⟨hi.room, hi.plan⟩
      | none =>
        obtain ⟨hdr, rest, hr, ht, _⟩ := k6 hw
        rw [ht]
        have hx := wouldExceed_false (readHeader_ok hr).2.2.2.2.2.1
        exact ⟨hx.2.2 hi.room, fun p hp => hx.2.1 p hp (hi.plan p hp)⟩
    refine ⟨by rw [hs.maxFile]; exact hi.file, ?_, by rw [hs.maxFile]; exact hlim.1, ?_⟩
    · intro p hp
      exact hlim.2 p (hs.planned ▸ hp)
    · have := hi.text
      omega

theorem fits_stable (W : Nat) : WinStable (Fits W) where
  ok hL hi h := (hi.done hL h).next (decodeWindow_ok hL h).2.1
  eod hL hi h := hi.eod hL h
  done hL hi h := hi.done hL h
  ended _ hi := ⟨hi.file, hi.plan, hi.room, hi.text⟩

theorem windowLoop_eq {W : Nat} (hW : 4294967296 ≤ W) (fuel : Nat) {L : Level} (hL : LevelInv L) (h : Fits W L) (s out : Bytes) :
    windowLoop W fuel L s out = Vcd.windowLoop fuel L s out := by
  induction fuel generalizing L s out with
  | zero => rfl
  | succ fuel ih =>
    rw [windowLoop, Vcd.windowLoop]
    split
    · rfl
    rw [decodeWindow_eq hW hL h]
    cases hd : Vcd.decodeWindow L s with
    | fault f => rfl
    | error => rfl
    | endOfData L' r => rfl
    | ok L' r =>
      simp only
      obtain ⟨i1, i2, _⟩ := decodeWindow_ok hL hd
      have hn := (fits_stable W).ok hL h hd
      have hLn := i1.inv.next i2
      unfold Level.next at hn hLn
      split
      · rfl
      by_cases ha : L'.allowTarget = true
      · rw [if_pos ha] at hn hLn
        rw [if_neg (by rw [ha]; decide), if_neg (by rw [ha]; decide)]
        exact ih hLn hn _ _
      · rw [if_neg ha] at hn hLn
        rw [if_pos (by simpa using ha), if_pos (by simpa using ha)]
        exact ih hLn hn _ _

theorem decodeChunkWindows_eq {W : Nat} (hW : 4294967296 ≤ W) {L : Level} (hL : LevelInv L) (h : Fits W L) (s : Bytes) :
    decodeChunkWindows W L s = Vcd.decodeChunkWindows L s := by
  unfold decodeChunkWindows Vcd.decodeChunkWindows
  rw [windowLoop_eq hW _ hL h]
  rfl

/-! ### Chunks -/

theorem Fits.congr {W : Nat} {L L' : Level} (h : Fits W L) (h1 : L'.maxFile = L.maxFile) (h2 : L'.planned = L.planned)
    (h3 : L'.total = L.total) (h4 : L'.decoded = L.decoded) (h5 : L'.owed = L.owed) : Fits W L' := by
  refine ⟨h1 ▸ h.file, ?_, by rw [h3, h1]; exact h.room, by rw [h3, h4, h5]; exact h.text⟩
  intro p hp
  rw [h3]
  exact h.plan p (h2 ▸ hp)

theorem forCodeTable_fits {W : Nat} (hW : 4294967296 ≤ W) : Fits W Level.forCodeTable := by
  refine ⟨?_, fun p hp => Nat.zero_le _, Nat.zero_le _, Nat.le_refl _⟩
  change defaultMaximumTargetFileSize < W
  unfold defaultMaximumTargetFileSize
  omega

theorem afterCodeTableChunk_eq {W : Nat} {L n : Level} {ns : List Level} {s text : Bytes}
    (h : ∀ t r, decodeChunkWindows W { L with tableString := [], table := t } r =
      Vcd.decodeChunkWindows { L with tableString := [], table := t } r) :
    afterCodeTableChunk W L n ns s text = Vcd.afterCodeTableChunk L n ns s text := by
  unfold afterCodeTableChunk Vcd.afterCodeTableChunk
  simp only [h]

/-- `ReadCustomCodeTable` and the rest of `DecodeChunk`, given how nested decoders behave. -/
def tableStep (W : Nat) (rec : Level → List Level → Bytes → ChunkResult) (L : Level) (ns : List Level) (s : Bytes) :
    ChunkResult :=
  match ns with
  | [] => decodeChunkWindows W L s
  | n :: ns =>
    match rec n ns s with
    | .fault f => .fault f
    | .error _ _ => failed L
    | .ok n' ns' text => afterCodeTableChunk W L n' ns' s text

theorem decodeChunkFuel_succ (W fuel : Nat) (L : Level) (ns : List Level) (data : Bytes) :
    decodeChunkFuel W (fuel + 1) L ns data =
      if L.started = false then .error L.reset []
      else
        match L.cache with
        | some _ => tableStep W (decodeChunkFuel W fuel) L ns (L.unparsed ++ data)
        | none =>
          match readFileHeader (L.unparsed ++ data) with
          | .error => failed L
          | .endOfData => endChunk L ns (L.unparsed ++ data) []
          | .ok hdr rest => tableStep W (decodeChunkFuel W fuel) (L.withHeader hdr) (nestedFor hdr ns) rest := by
  rw [decodeChunkFuel]
  by_cases hs : L.started = false
  · have hs' : (!L.started) = true := by rw [hs]; rfl
    rw [if_pos hs, if_pos hs']
  · have hs' : ¬ (!L.started) = true := by simpa using hs
    rw [if_neg hs, if_neg hs']
    dsimp only
    cases L.cache with
    | some c => cases ns <;> rfl
    | none =>
      dsimp only
      cases readFileHeader (L.unparsed ++ data) with
      | error => rfl
      | endOfData => rfl
      | ok hdr rest =>
        obtain ⟨v, c⟩ := hdr
        cases c with
        | none => cases ns <;> rfl
        | some p => rfl

/-- Every level fits. -/
def AllFit (W : Nat) (L : Level) (ns : List Level) : Prop := ∀ x ∈ L :: ns, Fits W x

theorem AllFit.one {W : Nat} {L : Level} (h : Fits W L) : AllFit W L [] := by
  intro x hx
  rw [List.mem_singleton] at hx
  rw [hx]; exact h

theorem tableStep_eq {W : Nat} (hW : 4294967296 ≤ W) {rec : Level → List Level → Bytes → ChunkResult} {L : Level} {ns : List Level}
    {s : Bytes} (hL : NodeInv L) (hc : L.cache ≠ none) (hf : Fits W L)
    (hT : ∀ n ns1, ns = n :: ns1 → L.decoded = [] ∧ L.win = none ∧ L.total = 0 ∧ L.tableString = n.decoded ∧ NestInv n ns1 ∧ ChainInv n ns1)
    (hrec : ∀ n ns1, ns = n :: ns1 → rec n ns1 s = chunkRun n ns1 s ∧
      ∀ n' ns' t, chunkRun n ns1 s = .ok n' ns' t → AllFit W n' ns') :
    tableStep W rec L ns s = Vcd.tableStep chunkRun L ns s ∧
    ∀ L' ns' o, Vcd.tableStep chunkRun L ns s = .ok L' ns' o → AllFit W L' ns' := by
  have hwin : ∀ (t : CodeTable) (r : Bytes), L.win = none → decodeChunkWindows W { L with tableString := [], table := t } r =
      Vcd.decodeChunkWindows { L with tableString := [], table := t } r := by
    intro t r hw
    exact decodeChunkWindows_eq hW (hL.closed_windows hw hc t []).inv (hf.congr rfl rfl rfl rfl rfl) r
  cases ns with
  | nil =>
    refine ⟨decodeChunkWindows_eq hW hL.inv hf s, ?_⟩
    intro L' ns' o h
    rw [Vcd.tableStep] at h
    rw [decodeChunkWindows_nested L s h]
    exact .one (windows_stable (fits_stable W) hL.inv hf h)
  | cons n ns =>
    obtain ⟨t1, t2, t3, t4, t5, t6⟩ := hT n ns rfl
    obtain ⟨r1, r2⟩ := hrec n ns rfl
    rw [tableStep, Vcd.tableStep, r1]
    cases hr : chunkRun n ns s with
    | fault f => exact ⟨rfl, by simp⟩
    | error L2 o2 => exact ⟨rfl, by simp [failed]⟩
    | ok n' ns' text =>
      simp only
      refine ⟨afterCodeTableChunk_eq fun t r => hwin t r t2, ?_⟩
      intro L' ns'' o h
      rcases table_step hL hc t1 t2 t3 t4 t5 ((chunk_inv t6 s).1 _ _ _ hr) with ⟨L1, k1, k2, _⟩ | ⟨k0, _, _, _, _, k1⟩
      · rw [k1] at h
        simp only [ChunkResult.ok.injEq] at h
        obtain ⟨rfl, rfl, _⟩ := h
        intro x hx
        rcases List.mem_cons.1 hx with rfl | hx
        · rw [k2]; exact hf.congr rfl rfl rfl rfl rfl
        · exact r2 _ _ _ hr x hx
      · rw [k1] at h
        rw [decodeChunkWindows_nested _ _ h]
        exact .one (windows_stable (fits_stable W) (hL.closed_windows t2 hc _ []).inv (hf.congr rfl rfl rfl rfl rfl) h)

theorem withHeader_fits {W : Nat} {L : Level} (h : Fits W L) (hdr : FileHeader) : Fits W (L.withHeader hdr) := by
  obtain ⟨v, c⟩ := hdr
  cases c with
  | none => exact h.congr rfl rfl rfl rfl rfl
  | some p => exact h.congr rfl rfl rfl rfl rfl

theorem chunk_eq {W : Nat} (hW : 4294967296 ≤ W) {fuel : Nat} {L : Level} {ns : List Level} (h : ChainInv L ns) (hf : AllFit W L ns)
    {data : Bytes} (hd : chunkDepth L ns data ≤ fuel) :
    decodeChunkFuel W fuel L ns data = chunkRun L ns data ∧
    ∀ L' ns' o, chunkRun L ns data = .ok L' ns' o → AllFit W L' ns' := by
  induction fuel generalizing L ns data with
  | zero => unfold chunkDepth at hd; omega
  | succ fuel ih =>
    have hnode := h.node
    rw [decodeChunkFuel_succ, chunkRun_eq, chunkStep, if_neg (by rw [hnode.started]; simp), if_neg (by rw [hnode.started]; simp)]
    have hL := hf L (List.mem_cons_self ..)
    cases hc : L.cache with
    | some c =>
      have hcn : L.cache ≠ none := by rw [hc]; simp
      simp only
      refine tableStep_eq hW hnode hcn hL ?_ ?_
      · rintro n ns1 rfl
        obtain ⟨_, hw, hn, hch⟩ := h
        exact ⟨hw.decoded, hw.win, hw.total, hw.str, hn, hch⟩
      · rintro n ns1 rfl
        refine ih h.2.2.2 (fun x hx => hf x (List.mem_cons_of_mem _ hx)) ?_
        simp only [chunkDepth, List.map_cons, List.sum_cons, List.length_append] at hd ⊢
        omega
    | none =>
      simp only
      cases hr : readFileHeader (L.unparsed ++ data) with
      | error => exact ⟨rfl, by simp [failed]⟩
      | endOfData =>
        refine ⟨rfl, ?_⟩
        intro L' ns' o he
        simp only [endChunk_eq, ChunkResult.ok.injEq] at he
        obtain ⟨rfl, rfl, _⟩ := he
        rw [h.none hc]
        exact .one (hL.congr rfl rfl rfl rfl rfl)
      | ok hdr rest =>
        simp only
        obtain ⟨i1, i2, i3, i4, i5, _⟩ := withHeader_inv hnode hc hdr
        obtain ⟨pre, p1, p2⟩ := readFileHeader_ok_pre hr
        have hl := congrArg List.length p1
        simp only [List.length_append] at hl
        have hns := h.none hc
        refine tableStep_eq hW i1 i2 (withHeader_fits hL hdr) ?_ ?_
        · intro n ns1 hn
          unfold nestedFor at hn
          split at hn
          · rw [hns] at hn; simp at hn
          · rename_i q hq
            simp only [List.cons.injEq] at hn
            obtain ⟨rfl, rfl⟩ := hn
            obtain ⟨_, f2, f3⟩ := forCodeTable_inv
            refine ⟨i3, i4, i5, ?_, f2, f3⟩
            obtain ⟨near, same⟩ := q
            simp only [Level.withHeader, hq]
            rfl
        · intro n ns1 hn
          unfold nestedFor at hn
          split at hn
          · rw [hns] at hn; simp at hn
          · simp only [List.cons.injEq] at hn
            obtain ⟨rfl, rfl⟩ := hn
            refine ih forCodeTable_inv.2.2 (.one (forCodeTable_fits hW)) ?_
            have : Level.forCodeTable.unparsed = [] := rfl
            simp only [chunkDepth, List.map_cons, List.sum_cons, List.map_nil, List.sum_nil, this, List.length_nil] at hd ⊢
            omega

/-! ### Calls -/

/-- What holds between any two calls if the limit on the file size is kept. -/
structure CallInv (W : Nat) (d : Decoder) (i : Bool) (lim : Nat) : Prop where
  inv : DecInv d
  limit : d.top.maxFile = lim
  small : lim < W
  inside : d.top.started = true → i = true
  fits : d.top.started = true → AllFit W d.top d.nested

theorem CallInv.chunk_eq {W : Nat} (hW : 4294967296 ≤ W) {d : Decoder} {i : Bool} {lim : Nat} (h : CallInv W d i lim) (data : Bytes) :
    decodeChunk W d data = chunkRun d.top d.nested data ∧
    ∀ L' ns' o, chunkRun d.top d.nested data = .ok L' ns' o → AllFit W L' ns' := by
  by_cases hs : d.top.started = true
  · exact Word.chunk_eq hW (h.inv hs).1 (h.fits hs) (Nat.le_refl _)
  · have hs' : d.top.started = false := by simpa using hs
    have hd : ∃ n, d.depthBound data = n + 1 := ⟨_, rfl⟩
    obtain ⟨n, hn⟩ := hd
    rw [decodeChunk, hn, decodeChunkFuel_succ, chunkRun_eq, chunkStep, if_pos hs', if_pos hs']
    exact ⟨rfl, by simp⟩

theorem CallInv.call_eq {W : Nat} (hW : 4294967296 ≤ W) {d : Decoder} {i : Bool} {lim : Nat} (h : CallInv W d i lim) (c : DecoderCall) :
    call W d c = d.call c := by
  cases c with
  | chunk data =>
    rw [call, (h.chunk_eq hW data).1, Decoder.call, decodeChunk_eq]
    cases chunkRun d.top d.nested data <;> rfl
  | _ => rfl

theorem CallInv.calls_eq {W : Nat} (hW : 4294967296 ≤ W) {d : Decoder} {i : Bool} {lim : Nat} (h : CallInv W d i lim)
    {cs : List DecoderCall} (hk : LimitKept i lim cs) (hn : ∀ n, .setMaxFile n ∈ cs → n < W) : calls W d cs = d.calls cs := by
  induction cs generalizing d i lim with
  | nil => rfl
  | cons c cs ih =>
    rw [calls, Decoder.calls, h.call_eq hW]
    cases hc : d.call c with
    | error f => rfl
    | ok q =>
      obtain ⟨r, d'⟩ := q
      simp only
      have hinv := h.inv.call hc
      have hn' : ∀ n, .setMaxFile n ∈ cs → n < W := fun n hx => hn n (List.mem_cons_of_mem _ hx)
      have key : ∃ i' lim', CallInv W d' i' lim' ∧ LimitKept i' lim' cs := by
        cases c with
        | start dict =>
          refine ⟨true, lim, ?_, hk⟩
          simp only [Decoder.call, Except.ok.injEq, Prod.mk.injEq] at hc
          obtain ⟨_, rfl⟩ := hc
          unfold Decoder.start at hinv ⊢
          by_cases hs : d.top.started = true
          · rw [if_pos hs] at hinv ⊢
            exact ⟨hinv, h.limit, h.small, fun _ => rfl, h.fits⟩
          · rw [if_neg hs] at hinv ⊢
            have e : (d.top.start dict).maxFile = lim ∧ (d.top.start dict).planned = none ∧ (d.top.start dict).total = 0 ∧
                (d.top.start dict).decoded = [] ∧ (d.top.start dict).win = none := by
              unfold Level.start
              rw [if_neg hs]
              exact ⟨h.limit, rfl, rfl, rfl, rfl⟩
            obtain ⟨e1, e2, e3, e4, e5⟩ := e
            refine ⟨hinv, e1, h.small, fun _ => rfl, fun _ => .one ⟨by rw [e1]; exact h.small, ?_, ?_, ?_⟩⟩
            · intro p hp
              rw [e2] at hp
              simp at hp
            · rw [e3]; exact Nat.zero_le _
            · rw [e3, e4]; simp [Level.owed, e5]
        | finish =>
          refine ⟨false, lim, ?_, hk⟩
          simp only [Decoder.call, Except.ok.injEq, Prod.mk.injEq] at hc
          obtain ⟨_, rfl⟩ := hc
          exact ⟨hinv, h.limit, h.small, fun hs => by simp [Decoder.finish, Level.reset] at hs,
            fun hs => by simp [Decoder.finish, Level.reset] at hs⟩
        | setMaxFile n =>
          refine ⟨i, n, ?_, hk.2⟩
          simp only [Decoder.call, Except.ok.injEq, Prod.mk.injEq] at hc
          obtain ⟨_, rfl⟩ := hc
          have hnW := hn n (List.mem_cons_self ..)
          refine ⟨hinv, rfl, hnW, h.inside, ?_⟩
          intro hs x hx
          have hs' : d.top.started = true := hs
          rcases List.mem_cons.1 hx with rfl | hx
          · have hf := h.fits hs' d.top (List.mem_cons_self ..)
            have h1 := hf.room
            have h2 := hk.1 (h.inside hs')
            rw [h.limit] at h1
            exact ⟨hnW, hf.plan, Nat.le_trans h1 h2, hf.text⟩
          · exact h.fits hs' x (List.mem_cons_of_mem _ hx)
        | setMaxWin n =>
          refine ⟨i, lim, ?_, hk⟩
          simp only [Decoder.call, Except.ok.injEq, Prod.mk.injEq] at hc
          obtain ⟨_, rfl⟩ := hc
          unfold Decoder.setMaxWin at hinv ⊢
          split
          · exact h
          · rename_i hw
            rw [if_neg hw] at hinv
            refine ⟨hinv, h.limit, h.small, h.inside, ?_⟩
            intro hs x hx
            have hs' : d.top.started = true := hs
            rcases List.mem_cons.1 hx with rfl | hx
            · exact (h.fits hs' d.top (List.mem_cons_self ..)).congr rfl rfl rfl rfl rfl
            · exact h.fits hs' x (List.mem_cons_of_mem _ hx)
        | setAllowTarget b =>
          refine ⟨i, lim, ?_, hk⟩
          simp only [Decoder.call, Except.ok.injEq, Prod.mk.injEq] at hc
          obtain ⟨_, rfl⟩ := hc
          unfold Decoder.setAllowTarget at hinv ⊢
          split
          · exact h
          · rename_i hs
            rw [if_neg hs] at hinv
            exact ⟨hinv, h.limit, h.small, fun hs' => absurd hs' hs, fun hs' => absurd hs' hs⟩
        | chunk data =>
          refine ⟨i, lim, ?_, hk⟩
          simp only [Decoder.call, decodeChunk_eq] at hc
          by_cases hs : d.top.started = true
          · obtain ⟨i1, i2, _⟩ := chunk_inv (h.inv hs).1 data
            cases hr : chunkRun d.top d.nested data with
            | fault f => simp [hr] at hc
            | error L o =>
              simp only [hr, Except.ok.injEq, Prod.mk.injEq] at hc
              obtain ⟨_, rfl⟩ := hc
              have he := i2 _ _ hr
              refine ⟨hinv, he.maxFile.trans h.limit, h.small, fun hs' => ?_, fun hs' => ?_⟩
              · have hs' : L.started = true := hs'
                rw [he.stopped] at hs'; simp at hs'
              · have hs' : L.started = true := hs'
                rw [he.stopped] at hs'; simp at hs'
            | ok L ns o =>
              simp only [hr, Except.ok.injEq, Prod.mk.injEq] at hc
              obtain ⟨_, rfl⟩ := hc
              exact ⟨hinv, (i1 _ _ _ hr).config.maxFile.trans h.limit, h.small, fun _ => h.inside hs,
                fun _ => (h.chunk_eq hW data).2 _ _ _ hr⟩
          · have hs' : d.top.started = false := by simpa using hs
            rw [chunkRun_eq, chunkStep, if_pos hs'] at hc
            simp only [Except.ok.injEq, Prod.mk.injEq] at hc
            obtain ⟨_, rfl⟩ := hc
            exact ⟨hinv, h.limit, h.small, fun hx => by simp [Level.reset] at hx, fun hx => by simp [Level.reset] at hx⟩
      obtain ⟨i', lim', k1, k2⟩ := key
      rw [ih k1 k2 hn']
      cases d'.calls cs <;> rfl

theorem CallInv.new {W : Nat} (hW : 4294967296 ≤ W) : CallInv W {} false 67108864 :=
  ⟨.new, rfl, by omega, fun h => by simp at h, fun h => by simp at h⟩

end Vcd.Word
