import Verif.Proof.RfcHeader
import Verif.Proof.RfcBody
import Verif.Proof.Adler

/-!
# `DecodeWindow` and the grammar of windows
-/

namespace Vcd
open Spec

theorem adlerOf_le (bs : Bytes) : adlerOf bs ≤ 0xFFFFFFFF := by
  have := adlerRun_lt (0, 0) (by simp) bs
  simp only [adlerOf, adlerValue]
  omega

/-- A decoder between windows, when `prev` is the target so far. -/
structure Fits (L : Level) (s : Settings) (prev : Bytes) : Prop where
  win : L.win = none
  inv : LevelInv L
  allow : s.allowTarget = L.allowTarget
  window : s.maxWindow = L.maxWin
  file : s.maxFile = L.cap
  total : L.total = prev.length
  le : prev.length ≤ L.cap
  dec : L.allowTarget = true → L.decoded = prev

/-- The members after a window with target `T`. -/
def Level.done (L : Level) (c : AddrCache) (T : Bytes) : Level :=
  L.after c T none (L.decoded.length + T.length) (L.total + T.length)

theorem bodyEndOk_iff {env : BodyEnv} {b : Body} {T pre : Bytes} (hd : b.decoded = pre ++ T)
    (hs : env.startPos = pre.length) (hT : T.length = env.hdr.targetLen) (hle : env.hdr.targetLen ≤ 2147483647) :
    bodyEndOk env b = true ↔ (∀ c, env.hdr.checksum = some c → adlerOf T = c) ∧
      (env.hdr.interleaved = true ∨ (b.data = [] ∧ b.addr = [])) := by
  have h1 : Level.targetBytesDecoded env.startPos b.decoded = env.hdr.targetLen := by
    rw [targetBytesDecoded_eq (by rw [hd, hs]; simp), hd, hs]
    simp [hT]
  have h2 : (b.decoded.drop env.startPos).take env.hdr.targetLen = T := by
    rw [hd, hs, List.drop_left' rfl, ← hT, List.take_length]
  unfold bodyEndOk
  rw [h1, h2, computeAdler32_eq T (by omega)]
  cases hc : env.hdr.checksum with
  | none => simp
  | some c => simp

theorem decodeWindow_sound {L : Level} {s : Settings} {prev : Bytes} (hF : Fits L s prev) {n m : Nat}
    (hns : n + m ≤ 254) (hc : L.cache.bind AddrCache.init = some (AddrCache.ofHist n m []))
    {tol : Tolerance} (htol : tol.dangling = true) {inp r : Bytes} {L' : Level}
    (h : decodeWindow L inp = .ok L' r) (hex : tol.excess = true ∨ r ≠ [] ∨ L.allowExtensions = false) :
    ∃ w T hist, inp = w ++ r ∧ WindowCode ⟨L.table, n, m⟩ L.allowExtensions tol s L.dict prev w T ∧
      L' = L.done (AddrCache.ofHist n m hist) T := by
  rw [decodeWindow_none hF.win] at h
  cases hr : readHeader L inp with
  | endOfData => simp [hr] at h
  | error => simp [hr] at h
  | ok hdr rest =>
    simp only [hr, hc] at h
    have hwin := newWindow_inv hF.inv hF.win hr
    have hsp := hF.inv.closed hF.win
    rw [readHeader_eq] at hr
    obtain ⟨f, rest', hf, hr⟩ := Parsed.bind_eq_ok.1 hr
    split at hr
    · simp at hr
    rename_i hav
    simp only [Parsed.ok.injEq] at hr
    obtain ⟨rfl, rfl⟩ := hr
    obtain ⟨pre, rfl, seg, dl, tlen, di, dlen, ilen, alen, cks, rfl, hseg, ndl, ntl, hwe, hdi, ndat, ninst, naddr, ncks⟩ :=
      headerFields_iff.1 hf
    obtain ⟨hsrc, hsl, hsl'⟩ := hseg.source hF.dec
    rw [wouldExceed_iff (by rw [hF.total]; exact hF.le)] at hwe
    -- the body
    have key : ∀ b : Body, b.pending = none → b.cache = AddrCache.ofHist n m [] → b.decoded = L.decoded →
        ∀ b', bodyRun ((L.opened (mkHeader L f)).env (mkHeader L f)) b = .ok b' →
        bodyEndOk ((L.opened (mkHeader L f)).env (mkHeader L f)) b' = true →
        ∃ T hist items ops, b'.decoded = L.decoded ++ T ∧ T.length = f.2.1 ∧ b'.cache = AddrCache.ofHist n m hist ∧
          (∀ c, f.2.2.checksum = some c → adlerOf T = c) ∧
          ((mkHeader L f).interleaved = true ∨ (b'.data = [] ∧ b'.addr = [])) ∧
          Program ⟨L.table, n, m⟩ tol [] (mkHeader L f).source.length items ops ∧ Tight items ops ∧
          execOps (mkHeader L f).source ops = (mkHeader L f).source ++ T ∧
          Consumes (mkHeader L f).interleaved items b b' ∧ (n ≤ 253 ∨ addrs ops = []) := by
      intro b hbp hbc hbd b' hrun hend
      obtain ⟨items, ops, r1, r2, r3, r4, r5, r6, r7, _, ⟨T, r9⟩, r10⟩ := bodyRun_sound hns b [] b' hbc
        (by rw [hbd]; exact hwin) hrun
      have hT : T.length = f.2.1 := by
        rw [r9, hbd] at r6
        simp only [List.length_append] at r6
        change _ = L.startPos + f.2.1 at r6
        omega
      rw [hbd] at r9
      obtain ⟨e1, e2⟩ := (bodyEndOk_iff (T := T) (pre := L.decoded) r9 hsp hT hwin.tgtLe).1 hend
      rw [hbp] at r1
      have hh : ((L.opened (mkHeader L f)).env (mkHeader L f)).here b.decoded = (mkHeader L f).source.length := by
        rw [hbd, hsl]
        simp [BodyEnv.here, Level.env, Level.opened, hsp, mkHeader]
      rw [hh] at r1
      have hsup : ∀ X : Bytes, ((L.opened (mkHeader L f)).env (mkHeader L f)).super (L.decoded ++ X)
          = (mkHeader L f).source ++ X := by
        intro X
        simp [BodyEnv.super, Level.env, Level.opened, hsp]
      have r4' : execOps (mkHeader L f).source ops = (mkHeader L f).source ++ T := by
        rw [r9, hsup, hbd] at r4
        have := hsup []
        rw [List.append_nil, List.append_nil] at this
        rw [this] at r4
        exact r4.symm
      exact ⟨T, _, items, ops, r9, hT, by rw [r3, List.nil_append], e1, e2, r1.rest (Or.inl htol), r7, r4', r2, r10⟩
    have hck : ∀ T : Bytes, (∀ c, f.2.2.checksum = some c → adlerOf T = c) →
        ChecksumCode (L.allowExtensions && (f.1.1 &&& 4 != 0)) T cks := by
      intro T hT
      unfold CksCode at ncks
      unfold ChecksumCode
      split
      · rename_i hp
        rw [if_pos hp] at ncks
        obtain ⟨v, h1, h2, h3, h4⟩ := ncks
        exact ⟨h2, by rw [h3, hT v h1]⟩
      · rename_i hp
        rw [if_neg hp] at ncks
        exact ncks.2
    have hclosed : ∀ b' : Body, ∀ T c, b'.decoded = L.decoded ++ T → T.length = f.2.1 → b'.cache = c →
        (L.opened (mkHeader L f)).closed b' = L.done c T := by
      intro b' T c h1 h2 h3
      simp only [Level.closed, Level.opened, Level.done, Level.after, h1, h3, mkHeader, ← h2]
      simp
    by_cases hi : (mkHeader L f).interleaved = true
    · rw [dwb_inter (w := newWindow (mkHeader L f)) hi] at h
      cases hb : bodyRun ((L.opened (mkHeader L f)).env (newWindow (mkHeader L f)).hdr)
          (interBody (L.opened (mkHeader L f)) (newWindow (mkHeader L f)) (AddrCache.ofHist n m []) rest') with
      | error => simp [hb] at h
      | fault x => simp [hb] at h
      | endOfData b' => simp only [hb] at h; split at h <;> simp at h
      | ok b' =>
        simp only [hb] at h
        split at h
        · rename_i hcond
          simp only [WinResult.ok.injEq] at h
          obtain ⟨rfl, rfl⟩ := h
          obtain ⟨T, hist, items, ops, k1, k2, k3, k4, k5, k6, k7, k8, k9, k10⟩ := key _ rfl rfl rfl b' hb hcond.1
          have hi' : L.allowExtensions = true ∧ f.2.2.dataLen = 0 ∧ f.2.2.addrLen = 0 := by
            simpa [mkHeader, headerInterleaved, and_assoc] using hi
          obtain ⟨hi1, hi2, hi3⟩ := hi'
          unfold Consumes at k9
          rw [if_pos hi, hcond.2] at k9
          have k9' : rest'.take f.2.2.instLen = items.flatMap Item.bytes ++ [] := k9.1
          rw [List.append_nil] at k9'
          have hlen : (rest'.take f.2.2.instLen).length + (f.2.2.instLen - rest'.length) = f.2.2.instLen := by
            rw [List.length_take]; omega
          refine ⟨_, T, hist, ?_, WindowCode.mk (dl := dl) (inst := rest'.take f.2.2.instLen) (data := []) (addr := [])
            (surplus := f.2.2.instLen - rest'.length) (by rw [hF.allow]; exact hsrc) k6 (Or.inr k7) k8 (by rw [k2, hF.window]; exact hwe.1)
            (by rw [k2, hF.file, ← hF.total]; exact hwe.2) ?_ ?_ (by rw [k2]; exact ntl) hdi
            (by rw [hi2] at ndat; exact ndat) (by rw [hlen]; exact ninst) (by rw [hi3] at naddr; exact naddr)
            (hck T k4) ?_ (Or.inr k10) hns, hclosed b' T _ k1 k2 k3⟩
          · simp [newWindow, mkHeader]
          · unfold SectionCode
            rw [if_pos ⟨hi1, rfl, rfl⟩]
            exact k9'
          · rcases hex with h | h | h
            · exact Or.inr ⟨h, hi1, rfl, rfl⟩
            · left
              have : (rest'.drop f.2.2.instLen) ≠ [] := h
              have : ¬ rest'.length ≤ f.2.2.instLen := fun hle => this (List.drop_eq_nil_of_le hle)
              omega
            · rw [hi1] at h; simp at h
          · rw [hlen]
            rw [hi2, hi3] at ndl
            exact ndl
        · simp at h
    · have hi' : (mkHeader L f).interleaved = false := by simpa using hi
      rw [dwb_std (w := newWindow (mkHeader L f)) hi'] at h
      cases hb : bodyRun ((L.opened (mkHeader L f)).env (newWindow (mkHeader L f)).hdr)
          (stdBody (L.opened (mkHeader L f)) (newWindow (mkHeader L f)) (AddrCache.ofHist n m []) rest') with
      | error => simp [hb] at h
      | fault x => simp [hb] at h
      | endOfData b' => simp [hb] at h
      | ok b' =>
        simp only [hb] at h
        split at h
        · rename_i hcond
          simp only [WinResult.ok.injEq] at h
          obtain ⟨rfl, rfl⟩ := h
          obtain ⟨T, hist, items, ops, k1, k2, k3, k4, k5, k6, k7, k8, k9, k10⟩ := key _ rfl rfl rfl b' hb hcond.1
          have hav' : f.2.2.dataLen + f.2.2.instLen + f.2.2.addrLen ≤ rest'.length := by
            have : headerInterleaved L f.2.2 = false := hi'
            simpa [this] using hav
          have k5' : b'.data = [] ∧ b'.addr = [] := by
            rcases k5 with h | h
            · exact absurd h hi
            · exact h
          unfold Consumes at k9
          rw [if_neg hi, hcond.2, k5'.1, k5'.2] at k9
          simp only [List.append_nil] at k9
          obtain ⟨c1, c2, c3⟩ := k9
          have c1' : (rest'.drop f.2.2.dataLen).take f.2.2.instLen = items.flatMap Item.inst := c1
          have c2' : rest'.take f.2.2.dataLen = items.flatMap Item.dataBytes := c2
          have c3' : (rest'.drop (f.2.2.dataLen + f.2.2.instLen)).take f.2.2.addrLen = items.flatMap Item.addr := c3
          have l1 : ((rest'.drop f.2.2.dataLen).take f.2.2.instLen).length = f.2.2.instLen := by
            rw [List.length_take, List.length_drop]; omega
          have l2 : (rest'.take f.2.2.dataLen).length = f.2.2.dataLen := by
            rw [List.length_take]; omega
          have l3 : ((rest'.drop (f.2.2.dataLen + f.2.2.instLen)).take f.2.2.addrLen).length = f.2.2.addrLen := by
            rw [List.length_take, List.length_drop]; omega
          refine ⟨_, T, hist, ?_, WindowCode.mk (inst := (rest'.drop f.2.2.dataLen).take f.2.2.instLen)
            (data := rest'.take f.2.2.dataLen) (addr := (rest'.drop (f.2.2.dataLen + f.2.2.instLen)).take f.2.2.addrLen)
            (surplus := 0) (by rw [hF.allow]; exact hsrc) k6 (Or.inr k7) k8 (by rw [k2, hF.window]; exact hwe.1)
            (by rw [k2, hF.file, ← hF.total]; exact hwe.2) ?_ (Or.inl rfl) (by rw [k2]; exact ntl) hdi
            (by rw [l2]; exact ndat) (by rw [l1]; exact ninst) (by rw [l3]; exact naddr)
            (hck T k4) (by rw [l1, l2, l3]; exact ndl) (Or.inr k10) hns, hclosed b' T _ k1 k2 k3⟩
          · have e : rest' = rest'.take f.2.2.dataLen ++ ((rest'.drop f.2.2.dataLen).take f.2.2.instLen ++
                ((rest'.drop (f.2.2.dataLen + f.2.2.instLen)).take f.2.2.addrLen ++
                  rest'.drop (f.2.2.dataLen + f.2.2.instLen + f.2.2.addrLen))) := by
              rw [← List.drop_drop (i := f.2.2.addrLen), List.take_append_drop, ← List.drop_drop (i := f.2.2.instLen),
                List.take_append_drop, List.take_append_drop]
            have e' := congrArg (fun X => [f.1.1] ++ seg ++ dl ++ (tlen ++ [di] ++ dlen ++ ilen ++ alen ++ cks) ++ X) e
            refine Eq.trans e' ?_
            simp [newWindow, mkHeader]
          · unfold SectionCode
            rw [if_neg, c1', c2', c3']
            · exact ⟨rfl, rfl, rfl⟩
            · rintro ⟨h1, h2, h3⟩
              rw [h2] at l2
              rw [h3] at l3
              apply hi
              simp [mkHeader, headerInterleaved, h1, ← l2, ← l3]
        · simp at h

theorem decodeWindow_complete {L : Level} {s : Settings} {prev : Bytes} (hF : Fits L s prev) {n m : Nat}
    (hns : n + m ≤ 254) (hc : L.cache.bind AddrCache.init = some (AddrCache.ofHist n m []))
    {tol : Tolerance} {w T r : Bytes}
    (h : WindowCode ⟨L.table, n, m⟩ L.allowExtensions tol s L.dict prev w T) (hex : tol.excess = false ∨ r = [])
    (htr : tol.trailing = false) (hmn : tol.manyNear = false) :
    ∃ hist, decodeWindow L (w ++ r) = .ok (L.done (AddrCache.ofHist n m hist) T) r := by
  cases h with
  | @mk ind di seg src dl tlen dlen ilen alen cks data inst addr _ items ops surplus source program tight exec
      windowLimit fileLimit sections noSurplus targetLength deltaIndicator dataLength instLength addrLength checksum
      deltaLength copies caches =>
    have hn : n ≤ 253 ∨ addrs ops = [] := copies.resolve_left (by rw [hmn]; simp)
    have tight : Tight items ops := tight.resolve_left (by rw [htr]; simp)
    rw [hF.allow] at source
    obtain ⟨len, pos, hseg, hsrc⟩ := source.seg hF.dec
    obtain ⟨ck, hck, hck'⟩ : ∃ ck, CksCode (L.allowExtensions && (ind &&& 4 != 0)) ck cks ∧
        (∀ c, ck = some c → adlerOf T = c) := by
      unfold ChecksumCode at checksum
      unfold CksCode
      split at checksum
      · rename_i hp
        exact ⟨some (adlerOf T), by rw [if_pos hp]; exact ⟨_, rfl, checksum.1, checksum.2, adlerOf_le T⟩, by simp⟩
      · rename_i hp
        exact ⟨none, by rw [if_neg hp]; exact ⟨rfl, checksum⟩, by simp⟩
    obtain ⟨f, hfe⟩ : ∃ f : (UInt8 × Nat × Nat) × Nat × SectionLengths,
        f = ((ind, len, pos), T.length, ⟨data.length, inst.length + surplus, addr.length, ck⟩) := ⟨_, rfl⟩
    have hhead : headerFields L ([ind] ++ seg ++ dl ++ (tlen ++ [di] ++ dlen ++ ilen ++ alen ++ cks) ++
        (data ++ inst ++ addr) ++ r) = .ok f (data ++ inst ++ addr ++ r) := by
      refine headerFields_iff.2 ⟨_, List.append_assoc _ _ _, ?_⟩
      subst hfe
      refine ⟨seg, dl, tlen, di, dlen, ilen, alen, cks, rfl, hseg, deltaLength, targetLength, ?_, deltaIndicator,
        dataLength, instLength, addrLength, hck⟩
      rw [wouldExceed_iff (by rw [hF.total]; exact hF.le)]
      exact ⟨by rw [← hF.window]; exact windowLimit, by rw [hF.total, ← hF.file]; exact fileLimit⟩
    have hint : headerInterleaved L f.2.2 = true ↔ L.allowExtensions = true ∧ data = [] ∧ addr = [] := by
      subst hfe
      simp [headerInterleaved, and_assoc]
    have hread : readHeader L ([ind] ++ seg ++ dl ++ (tlen ++ [di] ++ dlen ++ ilen ++ alen ++ cks) ++
        (data ++ inst ++ addr) ++ r) = .ok (mkHeader L f) (data ++ inst ++ addr ++ r) := by
      rw [readHeader_eq, hhead, Parsed.bind_ok, if_neg]
      simp only [Bool.and_eq_true, Bool.not_eq_true', decide_eq_true_eq, not_and, Nat.not_lt]
      intro hni
      have h0 : surplus = 0 := by
        rcases noSurplus with h | ⟨_, h⟩
        · exact h
        · rw [hint.2 h] at hni; simp at hni
      subst hfe
      simp only [List.length_append]
      omega
    have hwin := newWindow_inv hF.inv hF.win hread
    have hsp := hF.inv.closed hF.win
    have hsrc' : (mkHeader L f).source = src := by
      subst hfe
      rw [hsrc]; rfl
    have hsl : src.length = (mkHeader L f).srcLen := by
      rw [← hsrc']; exact hwin.src
    have htl : (mkHeader L f).targetLen = T.length := by subst hfe; rfl
    obtain ⟨p', hrun, _⟩ := program.run tight
    have hlenop : ∀ (ops : List Op) (u : Bytes), (execOps u ops).length = u.length + sizes ops := by
      intro ops
      induction ops with
      | nil => intro u; simp [execOps, sizes]
      | cons o ops ih =>
        intro u
        have : execOps u (o :: ops) = execOps (o.apply u) ops := rfl
        rw [this, ih]
        have : (o.apply u).length = u.length + o.size := by
          cases o with
          | add bs => simp [Op.apply, Op.size]
          | run b n => simp [Op.apply, Op.size]
          | copy a n => simp [Op.apply, Op.size, extend_eq]
        rw [this]
        simp [sizes]; omega
    have hsizes : sizes ops = T.length := by
      have := hlenop ops src
      rw [exec, List.length_append] at this
      omega
    rw [decodeWindow_none hF.win, hread]
    simp only [hc]
    -- the body
    have key : ∀ b b0 : Body, b.pending = none → b.cache = AddrCache.ofHist n m [] → b.decoded = L.decoded →
        Consumes (mkHeader L f).interleaved items b b0 →
        ((mkHeader L f).interleaved = true ∨ (b0.data = [] ∧ b0.addr = [])) → b0.inst = [] →
        ∃ b' hist, bodyRun ((L.opened (mkHeader L f)).env (mkHeader L f)) b = .ok b' ∧
          (bodyEndOk ((L.opened (mkHeader L f)).env (mkHeader L f)) b' = true ∧ b'.inst = []) ∧
          (L.opened (mkHeader L f)).closed b' = L.done (AddrCache.ofHist n m hist) T := by
      intro b b0 hbp hbc hbd hcon hdat hins
      obtain ⟨b', q1, q2, q3, q4, q5, ⟨T', q6⟩, q7, q8⟩ := bodyRun_complete
        (env := (L.opened (mkHeader L f)).env (mkHeader L f)) hns hrun hn b b0 hbp hbc (by rw [hbd]; exact hwin)
        (by rw [hbd, hsl]; simp [BodyEnv.here, Level.env, Level.opened, hsp])
        (by rw [hbd, hsizes]; change _ = L.startPos + (mkHeader L f).targetLen; rw [htl, hsp]) tight hcon
      have hsup : ∀ X : Bytes, ((L.opened (mkHeader L f)).env (mkHeader L f)).super (L.decoded ++ X) = src ++ X := by
        intro X
        simp [BodyEnv.super, Level.env, Level.opened, hsp, hsrc']
      have hTT : T' = T := by
        rw [q6, hbd, hsup] at q7
        have := hsup []
        rw [List.append_nil, List.append_nil] at this
        rw [this, exec] at q7
        exact List.append_cancel_left q7
      subst hTT
      rw [hbd] at q6
      refine ⟨b', [] ++ addrs ops, q1, ⟨?_, by rw [q2, hins]⟩, ?_⟩
      · refine (bodyEndOk_iff (T := T') (pre := L.decoded) q6 hsp htl.symm hwin.tgtLe).2 ⟨?_, ?_⟩
        · intro c h
          apply hck'
          subst hfe
          exact h
        · rw [q3, q4]; exact hdat
      · simp only [Level.closed, Level.opened, Level.done, Level.after, q6, q5, htl]
        simp
    by_cases hi : (mkHeader L f).interleaved = true
    · have hi' := hint.1 hi
      obtain ⟨hi1, rfl, rfl⟩ := hi'
      have hsec : inst = items.flatMap Item.bytes := by
        unfold SectionCode at sections
        rw [if_pos ⟨hi1, rfl, rfl⟩] at sections
        exact sections
      have hexp : (newWindow (mkHeader L f)).expected = inst.length + surplus := by subst hfe; rfl
      have hsr : surplus = 0 ∨ r = [] := by
        rcases noSurplus with h | ⟨h, _⟩
        · exact Or.inl h
        · rcases hex with h' | h'
          · rw [h] at h'; simp at h'
          · exact Or.inr h'
      have htake : ([] ++ inst ++ [] ++ r).take (inst.length + surplus) = inst := by
        rcases hsr with h | h
        · subst h; simp
        · subst h
          simp only [List.nil_append, List.append_nil]
          exact List.take_of_length_le (by omega)
      have hdrop : ([] ++ inst ++ [] ++ r).drop (inst.length + surplus) = r := by
        rcases hsr with h | h
        · subst h; simp
        · subst h; simp
      obtain ⟨b', hist, k1, k2, k3⟩ := key
        (interBody (L.opened (mkHeader L f)) (newWindow (mkHeader L f)) (AddrCache.ofHist n m []) ([] ++ inst ++ [] ++ r))
        { pending := none, inst := [], data := [], addr := [], cache := AddrCache.ofHist n m [], decoded := [] }
        rfl rfl rfl (by
          unfold Consumes interBody
          rw [if_pos hi]
          refine ⟨?_, rfl, rfl⟩
          change List.take (newWindow (mkHeader L f)).expected ([] ++ inst ++ [] ++ r) = _ ++ []
          rw [hexp, htake, List.append_nil]
          exact hsec) (Or.inl hi) rfl
      refine ⟨hist, ?_⟩
      rw [dwb_inter (w := newWindow (mkHeader L f)) hi]
      change (match bodyRun ((L.opened (mkHeader L f)).env (mkHeader L f)) _ with
        | .fault f => _ | .error => _ | .ok b' => _ | .endOfData b' => _) = _
      rw [k1]
      simp only
      have k2' : bodyEndOk ((L.opened (mkHeader L f)).env (newWindow (mkHeader L f)).hdr) b' = true ∧ b'.inst = [] := k2
      rw [if_pos k2', k3, hexp, hdrop]
    · have hi' : (mkHeader L f).interleaved = false := by simpa using hi
      have hni : ¬ (L.allowExtensions = true ∧ data = [] ∧ addr = []) := fun h => hi (hint.2 h)
      have h0 : surplus = 0 := by
        rcases noSurplus with h | ⟨_, h⟩
        · exact h
        · exact absurd h hni
      subst h0
      unfold SectionCode at sections
      rw [if_neg hni] at sections
      obtain ⟨s1, s2, s3⟩ := sections
      have d1 : (newWindow (mkHeader L f)).hdr.dataLen = data.length := by subst hfe; rfl
      have d2 : (newWindow (mkHeader L f)).hdr.instLen = inst.length := by subst hfe; rfl
      have d3 : (newWindow (mkHeader L f)).hdr.addrLen = addr.length := by subst hfe; rfl
      have e1 : (data ++ inst ++ addr ++ r).take data.length = data := by
        rw [List.append_assoc, List.append_assoc, List.take_left' rfl]
      have e2 : ((data ++ inst ++ addr ++ r).drop data.length).take inst.length = inst := by
        rw [List.append_assoc, List.append_assoc, List.drop_left' rfl, List.take_left' rfl]
      have e3 : ((data ++ inst ++ addr ++ r).drop (data.length + inst.length)).take addr.length = addr := by
        rw [List.append_assoc (data ++ inst), List.drop_left' (by simp), List.take_left' rfl]
      have e4 : (data ++ inst ++ addr ++ r).drop (data.length + inst.length + addr.length) = r := by
        rw [List.drop_left' (by simp only [List.length_append])]
      obtain ⟨b', hist, k1, k2, k3⟩ := key
        (stdBody (L.opened (mkHeader L f)) (newWindow (mkHeader L f)) (AddrCache.ofHist n m []) (data ++ inst ++ addr ++ r))
        { pending := none, inst := [], data := [], addr := [], cache := AddrCache.ofHist n m [], decoded := [] }
        rfl rfl rfl (by
          unfold Consumes stdBody
          rw [if_neg hi]
          simp only [d1, d2, d3, e1, e2, e3]
          exact ⟨by rw [List.append_nil]; exact s2, by rw [List.append_nil]; exact s1,
            by rw [List.append_nil]; exact s3⟩) (Or.inr ⟨rfl, rfl⟩) rfl
      refine ⟨hist, ?_⟩
      rw [dwb_std (w := newWindow (mkHeader L f)) hi']
      change (match bodyRun ((L.opened (mkHeader L f)).env (mkHeader L f)) _ with
        | .fault f => _ | .error => _ | .endOfData b' => _ | .ok b' => _) = _
      rw [k1]
      simp only
      have k2' : bodyEndOk ((L.opened (mkHeader L f)).env (newWindow (mkHeader L f)).hdr) b' = true ∧ b'.inst = [] := k2
      rw [if_pos k2', k3, d1, d2, d3, e4]

end Vcd
