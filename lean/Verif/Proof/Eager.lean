import Verif.Spec.Stream
import Verif.Proof.RfcComplete

/-!
# Interleaved windows: instructions are performed as soon as they are there
-/

namespace Vcd
open Spec

theorem sizes_append (a b : List Op) : sizes (a ++ b) = sizes a + sizes b := by simp [sizes]

theorem execOps_append (u : Bytes) (a b : List Op) : execOps u (a ++ b) = execOps (execOps u a) b := by
  simp [execOps, List.foldl_append]

theorem varint_ne {bs : Bytes} (h : IsVarint bs) : bs ≠ [] := by
  obtain ⟨_, _, h, _⟩ := h
  rw [h]; simp

theorem addrCode_ne {n s : Nat} {hist : List Nat} {here m : Nat} {bs : Bytes} {a : Nat}
    (h : AddrCode n s hist here m bs a) : bs ≠ [] := by
  cases h with
  | self h => exact varint_ne h
  | here h => exact varint_ne h
  | near _ h => exact varint_ne h
  | same => simp

/-- A program is a run, up to opcodes at its end that stand for nothing (yet). -/
theorem Spec.Program.runPrefix {c : Coding} {tol : Tolerance} {hist here items ops}
    (h : Program c tol hist here items ops) :
    ∃ i1 i2 p', items = i1 ++ i2 ∧ Run c none hist here i1 ops p' ∧
      ((∀ op, (c.table.first op).inst ≠ vcdNoop) → i2 = []) := by
  induction h with
  | nil => exact ⟨[], [], none, rfl, .nil, fun _ => rfl⟩
  | @cons hist here op i1 o1 i2 o2 items ops h1 h2 h3 ih =>
    obtain ⟨j1, j2, p', rfl, hr, hno⟩ := ih
    rcases h1.cases' with ⟨n1, rfl, rfl⟩ | ⟨n1, sb1, sz1, it1, op1, rfl, rfl, hs1, hop1⟩
    · rcases h2.cases' with ⟨n2, rfl, rfl⟩ | ⟨n2, sb2, sz2, it2, op2, rfl, rfl, hs2, hop2⟩
      · by_cases hne : j1 = []
        · subst hne
          obtain ⟨rfl, _⟩ := hr.nil_items
          exact ⟨[], _, none, rfl, .nil, fun hx => absurd n1 (hx op)⟩
        · have hp : pend c.table op = none := by simp [pend, n2]
          have := Run.skip (op := op) n1 (by rw [hp]; simpa [addrs, sizes] using hr) hne
          exact ⟨_, j2, p', by simp, this, hno⟩
      · have hp : pend c.table op = some op := by simp [pend, n2]
        have h2' : Run c (some op) hist here (([] : Bytes).map .opcode ++ ([.size sb2, it2] ++ j1)) (op2 :: ops) p' :=
          .step .pending hs2 (by simpa [addrs, sizes] using hop2) (by simpa [addrs, sizes] using hr)
        have := Run.skip (op := op) n1 (by rw [hp]; exact h2') (by simp)
        exact ⟨_, j2, p', by simp, this, hno⟩
    · rcases h2.cases' with ⟨n2, rfl, rfl⟩ | ⟨n2, sb2, sz2, it2, op2, rfl, rfl, hs2, hop2⟩
      · have hp : pend c.table op = none := by simp [pend, n2]
        have := Run.step (c := c) (p := none) (.first n1) hs1 hop1 (by rw [hp]; simpa [addrs, sizes] using hr)
        exact ⟨_, j2, p', by simp, this, hno⟩
      · have hp : pend c.table op = some op := by simp [pend, n2]
        have h2' : Run c (some op) (hist ++ op1.addrs) (here + op1.size)
            (([] : Bytes).map .opcode ++ ([.size sb2, it2] ++ j1)) (op2 :: ops) p' :=
          .step .pending hs2 (by simpa [addrs, sizes] using hop2) (by simpa [addrs, sizes] using hr)
        have := Run.step (c := c) (p := none) (.first n1) hs1 hop1 (by rw [hp]; exact h2')
        exact ⟨_, j2, p', by simp, this, hno⟩
  | @dangling hist here op i1 o1 hd h0 h1 =>
    rcases h1.cases' with ⟨n1, rfl, rfl⟩ | ⟨n1, sb1, sz1, it1, op1, rfl, rfl, hs1, hop1⟩
    · exact ⟨[], _, none, rfl, .nil, fun hx => absurd n1 (hx op)⟩
    · have := Run.step (c := c) (p := none) (.first n1) hs1 hop1 Run.nil
      exact ⟨_, [], _, by simp, this, fun _ => rfl⟩

/-- The loop performs a `Run` that does not complete the target, and goes on after it. -/
theorem bodyRun_partial {env : BodyEnv} {n s : Nat} (hns : n + s ≤ 254)
    {p : Option UInt8} {hist : List Nat} {here : Nat} {items : List Item} {ops : List Op} {p' : Option UInt8}
    (hr : Run ⟨env.table, n, s⟩ p hist here items ops p') (hn : n ≤ 253 ∨ addrs ops = []) :
    ∀ (b b0 : Body), b.pending = p → b.cache = AddrCache.ofHist n s hist → WinInv env b.decoded →
    env.here b.decoded = here → b.decoded.length + sizes ops < env.startPos + env.hdr.targetLen →
    Consumes env.hdr.interleaved items b b0 →
    ∃ b1, bodyRun env b = bodyRun env b1 ∧ b1.inst = b0.inst ∧
      b1.cache = AddrCache.ofHist n s (hist ++ addrs ops) ∧ WinInv env b1.decoded ∧
      b1.decoded.length = b.decoded.length + sizes ops ∧
      (∃ bytes, b1.decoded = b.decoded ++ bytes) ∧ env.super b1.decoded = execOps (env.super b.decoded) ops := by
  generalize hcod : (⟨env.table, n, s⟩ : Coding) = cod at hr
  induction hr with
  | nil =>
    intro b b0 hp hc hw hh hlen hcon
    have : b.inst = b0.inst := by
      unfold Consumes at hcon
      split at hcon
      · simpa using hcon.1
      · simpa using hcon.1
    exact ⟨b, rfl, this, by simp [hc, addrs], hw, by simp [sizes], ⟨[], by simp⟩, rfl⟩
  | @step p pre h p1 sb sz it o hist here items ops p' hfetch hsc hop hrun ih =>
    intro b b0 hp hc hw hh hlen hcon
    subst hcod
    have hstart := hw.start
    have hos := hop.size
    have hn1 : n ≤ 253 ∨ o.addrs = [] := hn.imp id (fun h => by simp [addrs] at h; exact h.1)
    have hn2 : n ≤ 253 ∨ addrs ops = [] := hn.imp id (fun h => by simp [addrs] at h ⊢; exact h.2)
    have hlen' : b.decoded.length + (o.size + sizes ops) < env.startPos + env.hdr.targetLen := by
      simpa [sizes] using hlen
    rw [bodyRun_eq, targetBytesDecoded_eq hstart, if_pos (by omega)]
    subst hh
    obtain ⟨r0, rest0, hin0, hst0, _⟩ := consumes_inv (env := env) (p := p1) (c := b.cache) (d := []) hop hcon
    have hsz' : sz + (b.decoded.length - env.startPos) ≤ env.hdr.targetLen := by omega
    obtain ⟨bytes, hex, hbl, hsup⟩ := execute_complete hw hns hc hsz' hop hst0 hn1
    obtain ⟨r, rest, hin, hst, hcon'⟩ := consumes_inv (env := env) (p := p1)
      (c := AddrCache.ofHist n s (hist ++ o.addrs)) (d := b.decoded ++ bytes) hop hcon
    have hrr : r = r0 := by
      rw [hin] at hin0
      exact List.append_cancel_left hin0
    subst hrr
    have hrest : rest = rest0 := by
      rw [hst] at hst0
      exact List.append_cancel_left hst0
    subst hrest
    rw [hp, hin, getNext_complete hfetch hsc]
    simp only
    rw [if_neg (by omega), hex]
    simp only
    obtain ⟨e1, e2⟩ := afterExec_cache env b h.inst r p1 rest (AddrCache.ofHist n s (hist ++ o.addrs)) (b.decoded ++ bytes)
    have e3 : (b.afterExec env h.inst r p1 rest (AddrCache.ofHist n s (hist ++ o.addrs)) (b.decoded ++ bytes)).pending = p1 :=
      (afterExec_inst (p := p1) hex).2
    obtain ⟨b1, q1, q2, q3, q4, q5, q6, q7⟩ := ih hn2 _ b0 e3 e1
      (by rw [e2]; exact hw.append _ (by omega))
      (by rw [e2]; simp only [BodyEnv.here, List.length_append]; omega)
      (by rw [e2, List.length_append]; omega) hcon'
    refine ⟨b1, q1, q2, ?_, q4, ?_, ?_, ?_⟩
    · rw [q3]; simp [addrs]
    · rw [q5, e2, List.length_append]; simp [sizes]; omega
    · obtain ⟨by2, q6⟩ := q6
      rw [e2] at q6
      exact ⟨bytes ++ by2, by rw [q6]; simp⟩
    · rw [q7, e2, hsup]; rfl

theorem OpCode.bytes_ne {n s hist here} {h : Half} {sb : Bytes} {sz it o} (hs : SizeCode h sb sz)
    (hop : OpCode n s hist here h.inst h.mode sz it o) : sb ++ it.bytes ≠ [] := by
  intro h0
  simp only [List.append_eq_nil_iff] at h0
  obtain ⟨rfl, h0⟩ := h0
  have hsz : sz ≠ 0 := by
    rcases hs with ⟨_, h⟩ | ⟨h, _, rfl⟩
    · exact absurd rfl (varint_ne h.1)
    · intro h1; exact h (UInt8.toNat_inj.1 h1)
  cases hop with
  | add _ h2 => simp [Item.bytes] at h0; subst h0; exact hsz h2.symm
  | run => simp [Item.bytes] at h0
  | copy _ h2 =>
    simp [Item.bytes] at h0
    exact addrCode_ne h2 h0

theorem Run.bytes_nil {c : Coding} {p hist here items ops p'} (h : Run c p hist here items ops p')
    (h0 : items.flatMap Item.bytes = []) : ops = [] := by
  cases h with
  | nil => rfl
  | @step _ pre hf p1 sb sz it o _ _ items ops _ hfetch hsc hop hrun =>
    have h1 : sb ++ it.bytes = [] := by
      simp only [List.flatMap_append, List.append_eq_nil_iff, List.flatMap_cons, List.flatMap_nil, (size_item sb).1] at h0
      simp [h0.2.1.1, h0.2.1.2.1]
    exact absurd h1 (OpCode.bytes_ne hsc hop)

/-- The loop cannot complete a target without input. -/
theorem bodyRun_not_ok {env : BodyEnv} {n s : Nat} (hns : n + s ≤ 254) (hi : env.hdr.interleaved = true) {hist : List Nat}
    {b b' : Body} (hc : b.cache = AddrCache.ofHist n s hist) (hw : WinInv env b.decoded) (h0 : b.inst = [])
    (hlt : b.decoded.length < env.startPos + env.hdr.targetLen) : bodyRun env b ≠ .ok b' := by
  intro h
  obtain ⟨items, ops, r1, r2, r3, r4, r5, r6, _⟩ := bodyRun_sound hns b hist b' hc hw h
  unfold Consumes at r2
  rw [if_pos hi, h0] at r2
  have := r1.bytes_nil (List.append_eq_nil_iff.1 r2.1.symm).1
  subst this
  simp [sizes] at r5
  omega

/-- What `DecodeBody` has done when the items `i1` of an interleaved window have arrived. -/
theorem bodyRun_begun {env : BodyEnv} {n s : Nat} (hns : n + s ≤ 254) (hi : env.hdr.interleaved = true)
    {here : Nat} {i1 items : List Item} {o1 ops : List Op} {p1 p2 : Option UInt8} {u : Bytes}
    (hr1 : Run ⟨env.table, n, s⟩ none [] here i1 o1 p1) (hr : Run ⟨env.table, n, s⟩ none [] here items ops p2)
    (hu : items.flatMap Item.bytes = i1.flatMap Item.bytes ++ u)
    (hn1 : n ≤ 253 ∨ addrs o1 = []) (hn : n ≤ 253 ∨ addrs ops = []) (b : Body) (hbi : b.inst = i1.flatMap Item.bytes)
    (hbp : b.pending = none) (hbc : b.cache = AddrCache.ofHist n s []) (hw : WinInv env b.decoded)
    (hh : env.here b.decoded = here) (hlen : b.decoded.length + sizes ops = env.startPos + env.hdr.targetLen)
    (hlt : sizes o1 < sizes ops) (ht : Tight items ops) :
    ∃ b', bodyRun env b = .endOfData b' ∧ u ≠ [] ∧ b'.inst = [] ∧
      ∃ bytes more, b'.decoded = b.decoded ++ bytes ++ more ∧ env.super (b.decoded ++ bytes) = execOps (env.super b.decoded) o1 := by
  have hcon : Consumes env.hdr.interleaved i1 b { b with inst := [] } := by
    unfold Consumes; rw [if_pos hi]; simp [hbi]
  have hconw : Consumes env.hdr.interleaved items (b.extend u) { b with inst := [] } := by
    unfold Consumes; rw [if_pos hi]; simp [hbi, Body.extend, hu]
  obtain ⟨b1, q1, q2, q3, q4, q5, ⟨bytes, q6⟩, q7⟩ := bodyRun_partial hns hr1 hn1 b _ hbp hbc hw hh (by omega) hcon
  obtain ⟨b', k1, k2, _⟩ := bodyRun_complete hns hr hn (b.extend u) _ hbp hbc hw hh hlen ht hconw
  have hnok : ∀ b', bodyRun env b ≠ .ok b' := by
    intro b'
    rw [q1]
    exact bodyRun_not_ok hns hi q3 q4 q2 (by omega)
  obtain ⟨x1, x2, x3, x4⟩ := bodyRun_extend hi u b
  cases hrun : bodyRun env b with
  | ok b' => exact absurd hrun (hnok b')
  | error => rw [x2 hrun] at k1; simp at k1
  | fault f => rw [x3 f hrun] at k1; simp at k1
  | endOfData b2 =>
    refine ⟨b2, rfl, ?_, ?_, ?_⟩
    · rintro rfl
      have e : b.extend [] = b := by simp [Body.extend]
      rw [e] at k1
      exact hnok _ k1
    · have hinv : BodyInv env n s b1 := ⟨q4, hns, _, q3⟩
      rw [q1] at hrun
      obtain ⟨_, _, _, ⟨pre, hp⟩, _⟩ := (bodyRun_inv b1 hinv).2.1 b2 hrun
      rw [q2] at hp
      exact (List.append_eq_nil_iff.1 hp.symm).2
    · obtain ⟨more, hm⟩ : ∃ more, b2.decoded = b1.decoded ++ more := by
        have hinv : BodyInv env n s b1 := ⟨q4, hns, _, q3⟩
        rw [q1] at hrun
        exact ((bodyRun_inv b1 hinv).2.1 b2 hrun).2.1
      exact ⟨bytes, more, by rw [hm, q6], by rw [← q6, q7]⟩

/-- What `DecodeWindow` has done when the beginning of an interleaved window has arrived, up to opcodes at its end that
stand for nothing yet. -/
theorem Between.begun {c : Coding} {s : Settings} {dict : Bytes} {L : Level} {prev v X : Bytes}
    (h : Between c true s dict L prev) (hv : WindowBegun c s dict prev v X) :
    ∃ v1 v2 L' more, v = v1 ++ v2 ∧ v1 ≠ [] ∧ decodeWindow L v1 = .endOfData L' [] ∧ L'.decoded = L.decoded ++ X ++ more ∧
      L'.outPos = L.outPos ∧ ((∀ op, (c.table.first op).inst ≠ vcdNoop) → v2 = []) := by
  cases hv with
  | @mk ind di seg src dl tlen dlen ilen alen cks _ Y items rest ops later source sofar program tight exec execLater
      unfinished windowLimit fileLimit targetLength deltaIndicator dataLength instLength addrLength checksum deltaLength
      copies caches =>
    have hF := h.fits
    obtain ⟨near, same, htab⟩ : ∃ n m, c = ⟨L.table, n, m⟩ := ⟨c.near, c.same, by rw [h.table]⟩
    subst htab
    have hext := h.ext
    have hcache := h.cache
    simp only at hcache caches copies
    obtain ⟨j1, j2, p1, rfl, hr1, hno⟩ := sofar.runPrefix
    obtain ⟨p2, hr2, _⟩ := program.run tight
    rw [hF.allow, ← h.dict] at source
    obtain ⟨len, pos, hseg, hsrc⟩ := source.seg hF.dec
    obtain ⟨inst, hinst⟩ : ∃ inst : Bytes, inst = (j1 ++ j2 ++ rest).flatMap Item.bytes := ⟨_, rfl⟩
    rw [← hinst] at instLength deltaLength
    obtain ⟨u, hu⟩ : ∃ u : Bytes, inst = j1.flatMap Item.bytes ++ u :=
      ⟨(j2 ++ rest).flatMap Item.bytes, by rw [hinst]; simp⟩
    obtain ⟨ck, hck⟩ : ∃ ck, CksCode (L.allowExtensions && (ind &&& 4 != 0)) ck cks := by
      unfold CksCode
      rw [hext, Bool.true_and]
      by_cases hp : ind &&& 4 = 0
      · rw [if_neg (by simpa using hp)] at checksum
        exact ⟨none, by rw [if_neg (by simpa using hp)]; exact ⟨rfl, checksum⟩⟩
      · rw [if_pos (by simpa using hp)] at checksum
        exact ⟨some (varintValue cks), by rw [if_pos (by simpa using hp)]; exact ⟨_, rfl, checksum.1, rfl, checksum.2⟩⟩
    obtain ⟨f, hfe⟩ : ∃ f : (UInt8 × Nat × Nat) × Nat × SectionLengths,
        f = ((ind, len, pos), (X ++ Y).length, ⟨0, inst.length, 0, ck⟩) := ⟨_, rfl⟩
    have hhead : headerFields L ([ind] ++ seg ++ dl ++ (tlen ++ [di] ++ dlen ++ ilen ++ alen ++ cks) ++
        j1.flatMap Item.bytes) = .ok f (j1.flatMap Item.bytes) := by
      refine headerFields_iff.2 ⟨_, rfl, ?_⟩
      subst hfe
      refine ⟨seg, dl, tlen, di, dlen, ilen, alen, cks, rfl, hseg, ?_, targetLength, ?_, deltaIndicator,
        dataLength, instLength, addrLength, hck⟩
      · simpa using deltaLength
      · rw [wouldExceed_iff (by rw [hF.total]; exact hF.le)]
        exact ⟨by rw [← hF.window]; exact windowLimit, by rw [hF.total, ← hF.file]; exact fileLimit⟩
    have hi : (mkHeader L f).interleaved = true := by
      subst hfe
      simp [mkHeader, headerInterleaved, hext]
    have hread : readHeader L ([ind] ++ seg ++ dl ++ (tlen ++ [di] ++ dlen ++ ilen ++ alen ++ cks) ++
        j1.flatMap Item.bytes) = .ok (mkHeader L f) (j1.flatMap Item.bytes) := by
      rw [readHeader_eq, hhead, Parsed.bind_ok, if_neg]
      simp only [Bool.and_eq_true, Bool.not_eq_true', decide_eq_true_eq, not_and, Nat.not_lt]
      intro hni
      have : (mkHeader L f).interleaved = false := hni
      rw [hi] at this; simp at this
    have hwin := newWindow_inv hF.inv hF.win hread
    have hsp := hF.inv.closed hF.win
    have hsrc' : (mkHeader L f).source = src := by
      subst hfe
      rw [hsrc]; rfl
    have hsl : src.length = (mkHeader L f).srcLen := by
      rw [← hsrc']; exact hwin.src
    have htl : (mkHeader L f).targetLen = (X ++ Y).length := by subst hfe; rfl
    have hexp : (newWindow (mkHeader L f)).expected = inst.length := by subst hfe; rfl
    have hs1 : sizes ops = X.length := by
      have := execOps_length ops src
      rw [exec, List.length_append] at this
      omega
    have hs2 : sizes (ops ++ later) = (X ++ Y).length := by
      have := execOps_length later (src ++ X)
      rw [execLater, List.length_append] at this
      rw [sizes_append, hs1, List.length_append]
      omega
    have hY : 0 < Y.length := List.length_pos_iff.2 unfinished
    have htake : (j1.flatMap Item.bytes).take (newWindow (mkHeader L f)).expected = j1.flatMap Item.bytes := by
      rw [hexp, hu]
      exact List.take_of_length_le (by simp)
    obtain ⟨b, hb⟩ : ∃ b, b = interBody (L.opened (mkHeader L f)) (newWindow (mkHeader L f)) (AddrCache.ofHist near same [])
        (j1.flatMap Item.bytes) := ⟨_, rfl⟩
    have hsup : ∀ Z : Bytes, ((L.opened (mkHeader L f)).env (mkHeader L f)).super (L.decoded ++ Z) = src ++ Z := by
      intro Z
      simp [BodyEnv.super, Level.env, Level.opened, hsp, hsrc']
    have hbd : b.decoded = L.decoded := by rw [hb]; rfl
    obtain ⟨b', k1, k2, k0, bytes, more, k3, k4⟩ := bodyRun_begun (env := (L.opened (mkHeader L f)).env (mkHeader L f)) caches hi hr1 hr2
      (u := u) (by rw [← hinst, hu]) (copies.imp id (fun hx => by simp [addrs] at hx ⊢; exact hx.1)) copies b
      (by rw [hb]; exact htake) (by rw [hb]; rfl) (by rw [hb]; rfl) (by rw [hbd]; exact hwin)
      (by rw [hbd, hsl]; simp [BodyEnv.here, Level.env, Level.opened, hsp])
      (by rw [hbd, hs2]; change _ = L.startPos + (mkHeader L f).targetLen; rw [htl, hsp])
      (by rw [hs1, hs2, List.length_append]; omega) tight
    have hX : bytes = X := by
      rw [hbd, hsup] at k4
      have := hsup []
      rw [List.append_nil, List.append_nil] at this
      rw [this, exec] at k4
      exact List.append_cancel_left k4
    subst hX
    have hul : 0 < u.length := List.length_pos_iff.2 k2
    have hcond : (newWindow (mkHeader L f)).expected -
        (((j1.flatMap Item.bytes).take (newWindow (mkHeader L f)).expected).length - b'.inst.length) > 0 := by
      rw [htake, hexp, hu, List.length_append]
      omega
    have hdec : ∃ e, decodeWindow L ([ind] ++ seg ++ dl ++ (tlen ++ [di] ++ dlen ++ ilen ++ alen ++ cks) ++
        j1.flatMap Item.bytes) =
          .endOfData ((L.opened (mkHeader L f)).suspended (newWindow (mkHeader L f)) e b') [] := by
      rw [decodeWindow_none hF.win, hread]
      simp only [hcache]
      rw [dwb_inter (w := newWindow (mkHeader L f)) hi, ← hb]
      refine ⟨(newWindow (mkHeader L f)).expected -
        (((j1.flatMap Item.bytes).take (newWindow (mkHeader L f)).expected).length - b'.inst.length), ?_⟩
      change (match bodyRun ((L.opened (mkHeader L f)).env (mkHeader L f)) _ with
        | .fault f => _ | .error => _ | .ok b' => _ | .endOfData b' => _) = _
      rw [k1]
      simp only
      rw [if_pos hcond]
      congr 1
      rw [htake, k0, List.length_nil, Nat.sub_zero, List.drop_length]
    obtain ⟨e, hdec⟩ := hdec
    refine ⟨_, j2.flatMap Item.bytes, _, more, ?_, ?_, hdec, ?_, rfl, fun hx => by rw [hno hx]; rfl⟩
    · simp
    · simp
    · change b'.decoded = _
      rw [k3, hbd]

/-- The beginning of an interleaved window, fed at once: what its instructions produce is output. -/
theorem feed_begun {c : Coding} {s : Settings} {dict : Bytes} {L : Level} {prev v X : Bytes} (hL : NodeInv L)
    (h : Between c true s dict L prev) (hc : L.cache ≠ none) (hu : L.unparsed = [])
    (hv : WindowBegun c s dict prev v X) :
    ∃ v1 v2 d more, v = v1 ++ v2 ∧ Decoder.feed { top := L, nested := [] } [v1] = some (X ++ more, d) ∧
      d.nested = [] ∧ d.top.unparsed = [] ∧ ((∀ op, (c.table.first op).inst ≠ vcdNoop) → v2 = []) := by
  obtain ⟨v1, v2, L', more, rfl, hne, h1, h2, h3, hno⟩ := h.begun hv
  have ht : L'.text = X ++ more := by
    simp only [Level.text, h2, h3, hL.out]
    simp
  have hrun : chunkRun L [] v1 = .ok (L'.ended []) [] (X ++ more) := by
    rw [chunkRun_windows hL hc, hu, List.nil_append, decodeChunkWindows_eq, winRun_eq h.fits.inv, if_neg hne, h1]
    simp [ht]
  refine ⟨v1, v2, { top := L'.ended [], nested := [] }, more, rfl, ?_, rfl, rfl, hno⟩
  have := feed_cons_of (d := { top := L, nested := [] }) (o2 := []) (cs := []) hrun rfl
  rwa [List.append_nil] at this

end Vcd
