import Verif.Proof.RfcChain

/-!
# File headers, custom code tables and the grammar of delta files: completeness
-/

namespace Vcd
open Spec

variable {c : Coding} {ext : Bool} {tol : Tolerance} {s : Settings} {dict : Bytes} {left : CodeTable}

/-! ### Small steps -/

theorem WindowsResult.prepend_append (x : WindowsResult) (a b : Bytes) : (x.prepend b).prepend a = x.prepend (a ++ b) := by
  cases x <;> simp [WindowsResult.prepend]

theorem text_nil {L : Level} (h : L.decoded = []) : L.text = [] := by simp [Level.text, h]

theorem Level.tableAfter_congr (L : Level) {a b : Bytes} (e : a = b) (ha : a.length = codeTableSize) (hb : b.length = codeTableSize) :
    L.tableAfter a ha = L.tableAfter b hb := by
  subst e; rfl

theorem installed_unique {near same : Nat} {t t1 t2 : CodeTable} (h1 : Installed near same t t1 left) (h2 : Installed near same t t2 left) :
    t1 = t2 := by
  rcases h1 with ⟨a, rfl⟩ | ⟨a, rfl⟩ <;> rcases h2 with ⟨b, rfl⟩ | ⟨b, rfl⟩
  · rfl
  · exact absurd a b
  · exact absurd b a
  · rfl

theorem Spec.WindowCode.caches {prev w T : Bytes} (h : WindowCode c ext tol s dict prev w T) : c.near + c.same ≤ 254 := by
  cases h with
  | mk => assumption

theorem reached_iff {L : Level} {p : Nat} (h : L.planned = some p) : L.reachedPlanned = true ↔ p ≤ L.total := by
  simp [Level.reachedPlanned, h]

theorem not_reached {L : Level} {prev : Bytes} (h : Between c ext s dict L prev) (hpl : ∀ p, L.planned = some p → prev.length < p) :
    L.reachedPlanned = false := by
  cases hp : L.planned with
  | none => simp [Level.reachedPlanned, hp]
  | some p =>
    have := hpl p hp
    simp only [Level.reachedPlanned, hp, decide_eq_false_iff_not]
    rw [h.fits.total]
    omega

/-- Windows in the middle of a chunk. -/
theorem winRun_complete {L : Level} {prev ws T : Bytes} (h : Between c ext s dict L prev)
    (ho : L.outPos ≤ L.decoded.length) (hw : Windows c ext tol s dict prev ws T)
    (hpl : ∀ p, L.planned = some p → (prev ++ T).length < p) (hex : tol.excess = false)
    (htr : tol.trailing = false) (hmn : tol.manyNear = false) (r : Bytes) :
    ∃ L' o, winRun L (ws ++ r) = (winRun L' r).prepend o ∧ Between c ext s dict L' (prev ++ T) ∧ L'.planned = L.planned ∧
      L'.outPos ≤ L'.decoded.length ∧ o ++ L'.text = L.text ++ T := by
  induction hw generalizing L with
  | nil => exact ⟨L, [], by rw [WindowsResult.prepend_nil]; rfl, by rw [List.append_nil]; exact h, rfl, ho, by simp⟩
  | @cons prev w T1 ws Ts hw1 hws ih =>
    obtain ⟨L1, k1, k2, k3, k4, k5⟩ := h.complete (r := ws ++ r) hw1 (Or.inl hex) htr hmn
    have hpn : L1.next.1.planned = L.planned := (static_fields (next_static L1)).planned.trans k5
    have ho1 : L1.outPos ≤ L1.decoded.length := by rw [k3, k4, List.length_append]; omega
    have hon := (next_fields L1).2.2.2 ho1
    obtain ⟨L2, o, q1, q2, q3, q4, q5⟩ := ih k2.next hon (fun p hp => by
      have := hpl p (hpn ▸ hp)
      simp only [List.length_append] at this ⊢
      omega)
    have hnr : L1.reachedPlanned = false := not_reached k2 (fun p hp => by
      have := hpl p (k5 ▸ hp)
      simp only [List.length_append] at this ⊢
      omega)
    refine ⟨L2, L1.next.2 ++ o, ?_, by rw [← List.append_assoc]; exact q2, q3.trans hpn, q4, ?_⟩
    · rw [List.append_assoc, winRun_eq h.fits.inv, if_neg (by simp [hw1.ne_nil]), k1]
      simp only [hnr, Bool.false_eq_true, if_false]
      rw [q1, WindowsResult.prepend_append]
    · have ht : L1.text = L.text ++ T1 := by
        simp only [Level.text, k3, k4]
        rw [List.drop_append_of_le_length ho]
      rw [List.append_assoc, q5, ← List.append_assoc, next_text, ht]
      simp

/-! ### Whole headers in one chunk -/

/-- A level that has read a file header. -/
structure Headed (c : Coding) (ext : Bool) (s : Settings) (dict : Bytes) (L L' : Level) : Prop where
  node : NodeInv L'
  decoded : L'.decoded = []
  win : L'.win = none
  cache : L'.cache ≠ none
  config : SameConfig L L'
  between : c.near + c.same ≤ 254 → Between c ext s dict L' []
  stuck : ¬ c.near + c.same ≤ 254 → L'.cache.bind AddrCache.init = none

theorem Headed.ended {L L' : Level} (h : Headed c ext s dict L L') (hn : NodeInv (L'.ended [])) : Headed c ext s dict L (L'.ended []) :=
  ⟨hn, h.decoded, h.win, h.cache, ⟨h.config.started, h.config.dict, h.config.planned, h.config.maxFile, h.config.maxWin,
    h.config.allowTarget⟩, fun hx => ((h.between hx).setUnparsed []).setOut _, h.stuck⟩

/-- The end of a file header with a custom code table. -/
theorem headed_custom {L : Level} (hL : NodeInv L) (hc : L.cache = none) (conf : Conf s dict L) (ht : L.table = left)
    {v : UInt8} {near same : Nat} {b str : Bytes} (hb : b.length = codeTableSize) {t : CodeTable}
    (hi : Installed near same (CodeTable.ofBytes b hb) t left) :
    Headed { table := t, near, same } (v == 0x53) s dict L
      { L.withHeader { version := v, caches := some (near, same) } with
        tableString := str,
        table := (L.withHeader { version := v, caches := some (near, same) }).tableAfter b hb } := by
  obtain ⟨w1, w2, w3, w4, w5, w6, w7, w8, w9⟩ := withHeader_inv hL hc { version := v, caches := some (near, same) }
  have hcache : (L.withHeader { version := v, caches := some (near, same) }).cache = some (AddrCache.new near same) := rfl
  have hconf := conf.withHeader { version := v, caches := some (near, same) }
  have hN := w1.closed_windows w4 w2
    ((L.withHeader { version := v, caches := some (near, same) }).tableAfter b hb) str
  refine ⟨hN, w3, w4, w2, ⟨w9.started, w9.dict, w9.planned, w9.maxFile, w9.maxWin, w9.allowTarget⟩, ?_, ?_⟩
  rotate_left
  · intro hsum
    change (AddrCache.new near same).init = none
    rw [AddrCache.init_new, if_pos (by simp only at hsum; omega)]
  intro hsum
  have e : (L.withHeader { version := v, caches := some (near, same) }).tableAfter b hb = t :=
    installed_unique (Level.tableAfter_installed hb hcache hsum (w7.1.trans ht)) hi
  have hB := Conf.between (s := s) (dict := dict) (L := { L.withHeader { version := v, caches := some (near, same) } with
        tableString := str,
        table := (L.withHeader { version := v, caches := some (near, same) }).tableAfter b hb })
    ⟨hconf.allow, hconf.window, hconf.file, hconf.dict⟩ hN w3 w4 w5 hcache hsum
  rw [e] at hB ⊢
  exact hB

theorem chunk_plain {L : Level} (hL : NodeInv L) (hc : L.cache = none) (hu : L.unparsed = [])
    {v hi : UInt8} (hv : v = 0 ∨ v = 0x53) (hhi : hi &&& 3 = 0) (r : Bytes) :
    chunkRun L [] ([0xD6, 0xC3, 0xC4, v, hi] ++ r) = decodeChunkWindows (L.withHeader { version := v, caches := none }) r := by
  rw [chunkRun_eq, chunkStep, if_neg (by rw [hL.started]; simp)]
  simp only [hc, hu, List.nil_append, readFileHeader_of hv hhi]
  rfl

theorem chunk_custom {L : Level} (hL : NodeInv L) (hc : L.cache = none) (hu : L.unparsed = [])
    {v hi : UInt8} (hv : v = 0 ∨ v = 0x53) (hhi : hi &&& 3 = 2) {nb sb : Bytes} {near same : Nat}
    (hn : NumCode nb near) (hn' : near ≤ 255) (hs : NumCode sb same) (hs' : same ≤ 255) (r : Bytes) :
    chunkRun L [] ([0xD6, 0xC3, 0xC4, v, hi] ++ nb ++ sb ++ r) =
      tableStep chunkRun (L.withHeader { version := v, caches := some (near, same) }) [Level.forCodeTable] r := by
  rw [chunkRun_eq, chunkStep, if_neg (by rw [hL.started]; simp)]
  simp only [hc, hu, List.nil_append, readFileHeader_of_custom hv hhi hn hn' hs hs']
  rfl

theorem headed_plain {L : Level} (hL : NodeInv L) (hc : L.cache = none) (conf : Conf s dict L) (ht : L.table = left) (v : UInt8) :
    Headed { defaultCoding with table := left } (v == 0x53) s dict L (L.withHeader { version := v, caches := none }) := by
  obtain ⟨w1, w2, w3, w4, w5, w6, w7, w8, w9⟩ := withHeader_inv hL hc { version := v, caches := none }
  refine ⟨w1, w3, w4, w2, w9, ?_, fun hx => absurd (show 4 + 3 ≤ 254 by decide) hx⟩
  intro hsum
  have hB := (conf.withHeader { version := v, caches := none }).between w1 w3 w4 w5 (near := 4) (same := 3) rfl (by decide)
  rw [w7.1, ht, w6] at hB
  exact hB

/-- A file header, and what follows it, in one chunk. -/
theorem header_run {hdr : Bytes} (h : FileHeaderCode tol hdr ext c left) (hex : tol.excess = false)
    (htr : tol.trailing = false) (hmn : tol.manyNear = false) (htab : tol.tables ≠ .rfc)
    {L : Level} (hL : NodeInv L) (hc : L.cache = none) (hu : L.unparsed = []) (conf : Conf s dict L) (ht : L.table = left) :
    ∃ L', Headed c ext s dict L L' ∧ ∀ r, chunkRun L [] (hdr ++ r) = decodeChunkWindows L' r := by
  induction h generalizing L s dict with
  | @plain v hi _ hv hhi => exact ⟨_, headed_plain hL hc conf ht v, chunk_plain hL hc hu hv hhi⟩
  | rfc hx => exact absurd hx htab
  | @library v hi nb sb hdr ws w T T' near same ext c t _ htabs hv hhi hnb hnear hsb hsame hH hws hlt hw hT hinst ih =>
    refine ⟨_, headed_custom (v := v) (str := []) hL hc conf ht hT hinst, ?_⟩
    intro r
    obtain ⟨_, hnI, hcI⟩ := forCodeTable_inv
    obtain ⟨n, hn, hrun⟩ := ih (L := Level.forCodeTable) hcI.node rfl rfl Conf.forCodeTable rfl
    have hB := hn.between hw.caches
    have hpl : n.planned = some 1536 := hn.config.planned
    obtain ⟨n1, o, q1, q2, q3, q4, q5⟩ := winRun_complete hB (Nat.le_of_eq hn.node.out) hws
      (fun p hp => by
        rw [hpl] at hp
        simp only [Option.some.injEq] at hp
        simpa [← hp] using hlt) hex htr hmn (w ++ r)
    rw [List.nil_append] at q2
    obtain ⟨n2, k1, k2, k3, k4, k5⟩ := q2.complete (r := r) hw (Or.inl hex) htr hmn
    have hreach : n2.reachedPlanned = true := by
      rw [reached_iff (k5.trans (q3.trans hpl)), k2.fits.total, hT]
      exact Nat.le_refl _
    have hwin : winRun n1 (w ++ r) = .done n2 r [] := by
      rw [winRun_eq q2.fits.inv, if_neg (by simp [hw.ne_nil]), k1]
      simp [hreach]
    have hin : chunkRun Level.forCodeTable [] (hdr ++ ((ws ++ w) ++ r)) = .ok (n2.ended r) [] (o ++ n2.text) := by
      rw [hrun, List.append_assoc, decodeChunkWindows_eq, q1, hwin]
      simp [WindowsResult.prepend]
    have hok := (chunk_inv hcI _).1 _ _ _ hin
    have hdec : (n2.ended r).decoded = T ++ T' := k2.fits.dec (by rw [← k2.fits.allow]; rfl)
    have e : [0xD6, 0xC3, 0xC4, v, hi] ++ nb ++ sb ++ (hdr ++ (ws ++ w)) ++ r =
        [0xD6, 0xC3, 0xC4, v, hi] ++ nb ++ sb ++ (hdr ++ ((ws ++ w) ++ r)) := by simp
    obtain ⟨w1, w2, w3, w4, w5, w6, w7, w8, w9⟩ := withHeader_inv hL hc { version := v, caches := some (near, same) }
    rw [e, chunk_custom hL hc hu hv hhi hnb hnear hsb hsame, tableStep, hin]
    simp only
    rcases table_step w1 w2 w3 w4 w5 rfl hnI hok with ⟨L1, _, _, _, _, hx⟩ | ⟨hlen, _, _, _, _, h1⟩
    · have := hx.small
      rw [hdec, hT] at this
      exact absurd this (by decide)
    · rw [h1, Level.tableAfter_congr _ hdec hlen hT]
      rfl

/-! ### One chunk for each header and window -/

/-- A window in a chunk of its own. -/
theorem chunk_window {L : Level} {prev w T : Bytes} (hL : NodeInv L)
    (h : Between c ext s dict L prev) (hc : L.cache ≠ none) (hu : L.unparsed = []) (hw : WindowCode c ext tol s dict prev w T)
    (htr : tol.trailing = false) (hmn : tol.manyNear = false) :
    ∃ L', chunkRun L [] w = .ok L' [] T ∧ Between c ext s dict L' (prev ++ T) ∧ L'.unparsed = [] ∧ L'.cache ≠ none := by
  obtain ⟨L1, k1, k2, k3, k4, k5⟩ := h.complete (r := []) hw (Or.inr rfl) htr hmn
  rw [List.append_nil] at k1
  have ht : L1.text = T := by
    simp only [Level.text, k3, k4, hL.out]
    simp
  have hcache : ∀ L' : Level, Between c ext s dict L' (prev ++ T) → L'.cache ≠ none := by
    intro L' hB hx
    have := hB.cache
    rw [hx] at this
    simp at this
  rw [chunkRun_windows hL hc, hu, List.nil_append, decodeChunkWindows_eq, winRun_eq h.fits.inv, if_neg hw.ne_nil, k1]
  by_cases hr : L1.reachedPlanned = true
  · have hB : Between c ext s dict (L1.ended []) (prev ++ T) := (k2.setUnparsed []).setOut _
    refine ⟨L1.ended [], ?_, hB, rfl, hcache _ hB⟩
    simp [hr, ht]
  · have hB : Between c ext s dict (L1.next.1.ended []) (prev ++ T) := (k2.next.setUnparsed []).setOut _
    refine ⟨L1.next.1.ended [], ?_, hB, rfl, hcache _ hB⟩
    simp only [hr, Bool.false_eq_true, if_false]
    rw [winRun_eq k2.next.fits.inv, if_pos rfl]
    simp [WindowsResult.prepend, next_text, ht]

theorem feed_windows {L : Level} {prev ws T : Bytes} (hL : NodeInv L)
    (h : Between c ext s dict L prev) (hc : L.cache ≠ none) (hu : L.unparsed = []) (hw : Windows c ext tol s dict prev ws T)
    (htr : tol.trailing = false) (hmn : tol.manyNear = false) :
    ∃ cs L', cs.flatten = ws ∧ Decoder.feed { top := L, nested := [] } cs = some (T, { top := L', nested := [] }) ∧
      NodeInv L' ∧ Between c ext s dict L' (prev ++ T) ∧ L'.unparsed = [] ∧ L'.cache ≠ none := by
  induction hw generalizing L with
  | nil => exact ⟨[], L, rfl, rfl, hL, by rw [List.append_nil]; exact h, hu, hc⟩
  | @cons prev w T1 ws Ts hw1 hws ih =>
    obtain ⟨L1, k1, k2, k3, k4⟩ := chunk_window hL h hc hu hw1 htr hmn
    have hok := (chunk_inv (L := L) (ns := []) hL w).1 _ _ _ k1
    obtain ⟨cs, L2, q1, q2, q3, q4, q5, q6⟩ := ih hok.inv k2 k4 k3
    refine ⟨w :: cs, L2, by rw [List.flatten_cons, q1], feed_cons_of (d := { top := L, nested := [] }) k1 q2, q3, ?_, q5, q6⟩
    rw [← List.append_assoc]
    exact q4

/-- What a feed keeps. -/
theorem feed_kept {d e : Decoder} {cs : List Bytes} {o : Bytes} (hd : ChainInv d.top d.nested) (ha : d.top.allowTarget = true)
    (h : d.feed cs = some (o, e)) :
    ChainInv e.top e.nested ∧ e.top.decoded = d.top.decoded ++ o ∧ SameConfig d.top e.top := by
  induction cs generalizing d o with
  | nil =>
    simp only [Decoder.feed, Option.some.injEq, Prod.mk.injEq] at h
    obtain ⟨rfl, rfl⟩ := h
    exact ⟨hd, by simp, .refl _⟩
  | cons a cs ih =>
    obtain ⟨L1, ns1, o1, o2, h1, h2, rfl⟩ := feed_cons_some h
    have hok := (chunk_inv hd a).1 _ _ _ h1
    obtain ⟨k1, k2, k3⟩ := ih (d := { top := L1, nested := ns1 }) hok.inv (hok.config.allowTarget.trans ha) h2
    refine ⟨k1, ?_, hok.config.trans k3⟩
    rw [k2, hok.kept ha, List.append_assoc]

/-- What a level that waits for nested decoders does while they are fed. -/
theorem feed_nested {L n : Level} {ns : List Level} {cs : List Bytes} {o : Bytes} {e : Decoder}
    (hd : ChainInv L (n :: ns)) (hf : Decoder.feed { top := n, nested := ns } cs = some (o, e))
    (hlt : e.top.decoded.length < codeTableSize) :
    ∃ L', Decoder.feed { top := L, nested := n :: ns } cs = some ([], { top := L', nested := e.top :: e.nested }) ∧
      ChainInv L' (e.top :: e.nested) ∧ ∃ str p, L' = { L with tableString := str, unparsed := [], outPos := p } := by
  induction cs generalizing L n ns o with
  | nil =>
    simp only [Decoder.feed, Option.some.injEq, Prod.mk.injEq] at hf
    obtain ⟨rfl, rfl⟩ := hf
    refine ⟨L, rfl, hd, L.tableString, L.outPos, ?_⟩
    have := hd.2.1.unparsed
    cases L
    simp at this
    simp [this]
  | cons a cs ih =>
    obtain ⟨n1, ns1, o1, o2, h1, h2, rfl⟩ := feed_cons_some hf
    obtain ⟨hL, hwait, hnI, hcI⟩ := hd
    have hok := (chunk_inv hcI a).1 _ _ _ h1
    have hrun : chunkRun L (n :: ns) a = afterCodeTableChunk L n1 ns1 a o1 := by
      rw [chunkRun_nested hL hwait.cache, hwait.unparsed, List.nil_append, tableStep]
      simp only at h1
      rw [h1]
    rcases table_step hL hwait.cache hwait.decoded hwait.win hwait.total hwait.str hnI hok with
      ⟨L1, k1, k2, k3, k4, k5⟩ | ⟨hlen, _⟩
    · rw [k1] at hrun
      obtain ⟨L2, q1, q2, str, p, q3⟩ := ih (L := L1) ⟨k3, k4, k5, hok.inv⟩ h2
      refine ⟨L2, feed_cons_of (d := { top := L, nested := n :: ns }) (o1 := []) hrun q1, q2, str, p, ?_⟩
      rw [q3, k2]
    · have := (feed_kept (d := { top := n1, nested := ns1 }) hok.inv (hok.config.allowTarget.trans hnI.target) h2).2.1
      rw [this, List.length_append, hlen] at hlt
      omega

/-- The chunks of a file header. -/
theorem header_feed {hdr : Bytes} (h : FileHeaderCode tol hdr ext c left)
    (htr : tol.trailing = false) (hmn : tol.manyNear = false) (htab : tol.tables ≠ .rfc)
    {L : Level} (hL : NodeInv L) (hc : L.cache = none) (hu : L.unparsed = []) (conf : Conf s dict L) (ht : L.table = left) :
    ∃ cs L', cs.flatten = hdr ∧ Decoder.feed { top := L, nested := [] } cs = some ([], { top := L', nested := [] }) ∧
      Headed c ext s dict L L' ∧ L'.unparsed = [] := by
  induction h generalizing L s dict with
  | @plain v hi _ hv hhi =>
    have hH := headed_plain hL hc conf ht v
    have hrun := chunk_plain hL hc hu hv hhi []
    rw [decodeChunkWindows_eq, winRun_eq hH.node.inv, if_pos rfl, List.append_nil] at hrun
    have htx : (L.withHeader { version := v, caches := none }).text = [] := by simp [Level.text, hH.decoded]
    simp only [htx, List.append_nil] at hrun
    have hok := (chunk_inv (L := L) (ns := []) hL _).1 _ _ _ hrun
    exact ⟨[_], _, by simp, feed_cons_of (d := { top := L, nested := [] }) (o1 := []) (o2 := []) hrun rfl, hH.ended hok.inv, rfl⟩
  | rfc hx => exact absurd hx htab
  | @library v hi nb sb hdr ws w T T' near same ext c t _ htabs hv hhi hnb hnear hsb hsame hH hws hlt hw hT hinst ih =>
    obtain ⟨_, hnI, hcI⟩ := forCodeTable_inv
    obtain ⟨w1, w2, w3, w4, w5, w6, w7, w8, w9⟩ := withHeader_inv hL hc { version := v, caches := some (near, same) }
    -- the file header proper
    have hrun := chunk_custom hL hc hu hv hhi hnb hnear hsb hsame []
    have hempty : chunkRun Level.forCodeTable [] [] = .ok Level.forCodeTable [] [] := chunk_empty hcI hnI.waits
    have hok0 := (chunk_inv hcI []).1 _ _ _ hempty
    rw [tableStep, hempty, List.append_nil] at hrun
    simp only at hrun
    obtain ⟨L1, k1, k2, k3, k4, k5⟩ := (table_step w1 w2 w3 w4 w5 rfl hnI hok0).resolve_right
      (fun ⟨hlen, _⟩ => absurd hlen (by decide))
    rw [k1] at hrun
    -- the header and the windows of the code table but the last
    obtain ⟨cs1, n1, e1, f1, hn1, hu1⟩ := ih (L := Level.forCodeTable) hcI.node rfl rfl Conf.forCodeTable rfl
    have hB := hn1.between hw.caches
    obtain ⟨cs2, n2, e2, f2, hn2, hB2, hu2, hc2⟩ := feed_windows hn1.node hB hn1.cache hu1 hws htr hmn
    rw [List.nil_append] at hB2
    have hfin : Decoder.feed { top := Level.forCodeTable, nested := [] } (cs1 ++ cs2) = some (T, { top := n2, nested := [] }) :=
      feed_append.2 ⟨_, _, _, f1, f2, rfl⟩
    have hdec2 : n2.decoded = T := hB2.fits.dec (by rw [← hB2.fits.allow]; rfl)
    obtain ⟨L2, g1, ⟨g2, g3, g4, g5⟩, str, p, g6⟩ := feed_nested (L := L1) ⟨k3, k4, k5, hcI⟩ hfin (by rw [hdec2]; exact hlt)
    -- the last window
    obtain ⟨n3, j1, j2, j3, j4⟩ := chunk_window hn2 hB2 hc2 hu2 hw htr hmn
    have hdec3 : n3.decoded = T ++ T' := j2.fits.dec (by rw [← j2.fits.allow]; rfl)
    have hok3 := (chunk_inv g5 _).1 _ _ _ j1
    have hlast : chunkRun L2 [n2] w = afterCodeTableChunk L2 n3 [] w T' := by
      rw [chunkRun_nested g2 g3.cache, g3.unparsed, List.nil_append, tableStep, j1]
    rcases table_step g2 g3.cache g3.decoded g3.win g3.total g3.str g4 hok3 with ⟨L3, _, _, _, _, hx⟩ | ⟨hlen, _, _, _, _, h1⟩
    · have := hx.small
      rw [hdec3, hT] at this
      exact absurd this (by decide)
    rw [h1, j3, Level.tableAfter_congr _ hdec3 hlen hT] at hlast
    have hH := headed_custom (v := v) (str := []) hL hc conf ht hT hinst
    have hafter : L2.tableAfter (T ++ T') hT =
        (L.withHeader { version := v, caches := some (near, same) }).tableAfter (T ++ T') hT := by
      rw [g6, k2]; rfl
    have hlevel : ({ L2 with tableString := [], table := L2.tableAfter (T ++ T') hT } : Level) =
        ({ L.withHeader { version := v, caches := some (near, same) } with
          tableString := [],
          table := (L.withHeader { version := v, caches := some (near, same) }).tableAfter (T ++ T') hT } : Level).setOut p := by
      rw [hafter, g6, k2]
      simp only [Level.setOut, Level.withHeader]
      rw [hu]
    have hN2 := g2.closed_windows g3.win g3.cache (L2.tableAfter (T ++ T') hT) []
    rw [decodeChunkWindows_eq, winRun_eq hN2.inv, if_pos rfl] at hlast
    have htx : ({ L2 with tableString := [], table := L2.tableAfter (T ++ T') hT } : Level).text = [] :=
      text_nil g3.decoded
    simp only [htx, List.append_nil] at hlast
    have hend : ({ L2 with tableString := [], table := L2.tableAfter (T ++ T') hT } : Level).ended [] =
        ({ L.withHeader { version := v, caches := some (near, same) } with
          tableString := [],
          table := (L.withHeader { version := v, caches := some (near, same) }).tableAfter (T ++ T') hT } : Level).ended [] := by
      rw [hlevel]; rfl
    rw [hend] at hlast
    have hokl := (chunk_inv (L := L2) (ns := [n2]) ⟨g2, g3, g4, g5⟩ _).1 _ _ _ hlast
    refine ⟨([0xD6, 0xC3, 0xC4, v, hi] ++ nb ++ sb) :: ((cs1 ++ cs2) ++ [w]), _, ?_, ?_, hH.ended hokl.inv, rfl⟩
    · simp [e1, e2]
    · refine feed_cons_of (d := { top := L, nested := [] }) (o1 := []) (o2 := []) hrun ?_
      exact feed_append.2 ⟨_, [], [], g1,
        feed_cons_of (d := { top := L2, nested := [n2] }) (o1 := []) (o2 := []) hlast rfl, rfl⟩

/-! ### Files -/

theorem finish_complete {e : Decoder} (hf : Fed e) (hn : e.nested = []) (hw : e.top.win = none) (hu : e.top.unparsed = []) :
    e.finish.1 = true := by
  unfold Decoder.finish Level.isComplete
  rw [hn, hw, hu, hf.chain.node.started]
  cases e.top.cache with
  | none => rfl
  | some c => simp

section
variable {d : Decoder} (hs : d.top.started = false) (ht : d.top.table = left)
    (allow : s.allowTarget = d.top.allowTarget) (window : s.maxWindow = d.top.maxWin)
    (file : s.maxFile = d.top.maxFile)
include hs ht allow window file

/-- A file in one chunk. -/
theorem decode_complete {delta T : Bytes} (h : FileCode tol s dict delta T left) (hex : tol.excess = false)
    (htr : tol.trailing = false) (hmn : tol.manyNear = false) (htab : tol.tables ≠ .rfc) :
    d.decode dict [delta] = some T := by
  have hf := Fed.start d hs dict
  have hconf := conf_start hs allow window file dict
  have e := start_fresh hs dict
  have hn : (d.start dict).nested = [] := by rw [e]
  have hc : (d.start dict).top.cache = none := by rw [e]; rfl
  have hu : (d.start dict).top.unparsed = [] := by rw [e]; rfl
  have hw : (d.start dict).top.win = none := by rw [e]; rfl
  have htt : (d.start dict).top.table = left := by rw [e]; exact ht
  cases h with
  | empty =>
    refine decode_some.2 ⟨d.start dict, ?_, finish_complete hf hn hw hu⟩
    refine feed_cons_of (o1 := []) (o2 := []) (chunk_empty hf.chain hf.waits) rfl
  | @mk hdr ws T ext c _ hH hws =>
    obtain ⟨L, hL, hrun⟩ := header_run hH hex htr hmn htab hf.chain.node hc hu hconf htt
    have hwr : ∃ L' o, winRun L ws = .done L' [] o ∧ L'.win = none ∧ o ++ L'.text = T := by
      have hnil : ws = [] → T = [] → ∃ L' o, winRun L ws = .done L' [] o ∧ L'.win = none ∧ o ++ L'.text = T := by
        rintro rfl rfl
        refine ⟨L, [], ?_, hL.win, by simp [Level.text, hL.decoded]⟩
        rw [winRun_eq hL.node.inv, if_pos rfl]
      by_cases hne : c.near + c.same ≤ 254
      · obtain ⟨L', o, q1, q2, q3, q4, q5⟩ := winRun_complete (hL.between hne) (Nat.le_of_eq hL.node.out) hws
          (fun p hp => by rw [hL.config.planned, hf.planned] at hp; simp at hp) hex htr hmn []
        rw [List.append_nil, winRun_eq q2.fits.inv, if_pos rfl] at q1
        refine ⟨L', _, q1, q2.fits.win, ?_⟩
        simpa [Level.text, hL.decoded] using q5
      · cases hws with
        | nil => exact hnil rfl rfl
        | cons h1 _ => exact absurd h1.caches hne
    obtain ⟨L', o, q1, q2, q3⟩ := hwr
    have hrun' : chunkRun (d.start dict).top (d.start dict).nested (hdr ++ ws) = .ok (L'.ended []) [] T := by
      rw [hn, hrun, decodeChunkWindows_eq, q1]
      simp only
      rw [q3]
    have hfed := hf.next hrun'
    refine decode_some.2 ⟨{ top := L'.ended [], nested := [] }, ?_, finish_complete hfed rfl q2 rfl⟩
    have := feed_cons_of (o2 := []) (d' := { top := L'.ended [], nested := [] }) (cs := []) hrun' rfl
    rwa [List.append_nil] at this

theorem decode_complete_singles {delta T : Bytes} (h : FileCode tol s dict delta T left) (htr : tol.trailing = false)
    (hmn : tol.manyNear = false) (htab : tol.tables ≠ .rfc) : d.decode dict (singles delta) = some T := by
  have hf := Fed.start d hs dict
  have hconf := conf_start hs allow window file dict
  have e := start_fresh hs dict
  have hn : (d.start dict).nested = [] := by rw [e]
  have hc : (d.start dict).top.cache = none := by rw [e]; rfl
  have hu : (d.start dict).top.unparsed = [] := by rw [e]; rfl
  have hw : (d.start dict).top.win = none := by rw [e]; rfl
  have htt : (d.start dict).top.table = left := by rw [e]; exact ht
  cases h with
  | empty => exact decode_some.2 ⟨d.start dict, rfl, finish_complete hf hn hw hu⟩
  | @mk hdr ws T ext c _ hH hws =>
    obtain ⟨cs1, L, e1, f1, hL, hu1⟩ := header_feed hH htr hmn htab hf.chain.node hc hu hconf htt
    have hwr : ∃ cs2 L', cs2.flatten = ws ∧ Decoder.feed { top := L, nested := [] } cs2 = some (T, { top := L', nested := [] }) ∧
        L'.win = none ∧ L'.unparsed = [] := by
      by_cases hne : c.near + c.same ≤ 254
      · obtain ⟨cs2, L', q1, q2, q3, q4, q5, q6⟩ := feed_windows hL.node (hL.between hne) hL.cache hu1 hws htr hmn
        exact ⟨cs2, L', q1, q2, q4.fits.win, q5⟩
      · cases hws with
        | nil => exact ⟨[], L, rfl, rfl, hL.win, hu1⟩
        | cons h1 _ => exact absurd h1.caches hne
    obtain ⟨cs2, L', e2, f2, hw2, hu2⟩ := hwr
    have hd0 : d.start dict = { top := (d.start dict).top, nested := [] } := by rw [← hn]
    have hfeed : (d.start dict).feed (cs1 ++ cs2) = some (T, { top := L', nested := [] }) := by
      rw [hd0]
      exact feed_append.2 ⟨_, _, _, f1, f2, rfl⟩
    have hdec := decode_some.2 ⟨_, hfeed, finish_complete (hf.feed hfeed) rfl hw2 hu2⟩
    have := decode_singles hs hdec
    simpa [e1, e2] using this
end

end Vcd
