import Verif.Proof.RfcChain
import Verif.Proof.Reuse

/-!
# Consequences of the grammar of delta files
-/

namespace Vcd
open Spec

variable {c : Coding} {ext : Bool} {tol : Tolerance} {s : Settings} {dict p0 : Bytes} {left : CodeTable}

/-- Several chunks of windows. -/
theorem Track.feed (htol : tol.dangling = true) (hex : tol.excess = true ∨ ext = false) {d e : Decoder}
    {ws u T p o : Bytes} {cs : List Bytes} (hd : Fed d) (hc : d.top.cache ≠ none) (hn : d.nested = [])
    (h : Track c ext tol s dict p0 d.top d.top.unparsed ws u T p) (hf : d.feed cs = some (o, e)) :
    ∃ ws' u' T' p', ws' ++ u' = ws ++ u ++ cs.flatten ∧ Track c ext tol s dict p0 e.top e.top.unparsed ws' u' T' p' ∧
      T ++ p ++ o = T' ++ p' := by
  induction cs generalizing d ws u T p o with
  | nil =>
    simp only [Decoder.feed, Option.some.injEq, Prod.mk.injEq] at hf
    obtain ⟨rfl, rfl⟩ := hf
    exact ⟨ws, u, T, p, by simp, h, by simp⟩
  | cons a cs ih =>
    obtain ⟨L1, ns1, o1, o2, h1, h2, rfl⟩ := feed_cons_some hf
    have hfed := hd.next h1
    have hL := hd.chain.node
    rw [hn, chunkRun_windows hL hc] at h1
    obtain ⟨rfl, ws1, u1, T1, p1, k1, k2, k3, _⟩ :=
      (h.chunk htol hex (data := a) (by simp [Level.text, hL.out]) (by rw [hd.planned]; simp)).1 _ _ _ h1
    obtain ⟨_, _, _, _, _, _, _, _, _, _, _, _, a13⟩ := (windows_inv hL hc _).1 _ _ _ h1
    have hc1 : L1.cache ≠ none := by
      cases hx : d.top.cache with
      | none => exact absurd hx hc
      | some c0 =>
        obtain ⟨c', h, _⟩ := a13 c0 hx
        rw [h]; simp
    obtain ⟨ws2, u2, T2, p2, g1, g2, g3⟩ := ih hfed hc1 rfl k2 h2
    refine ⟨ws2, u2, T2, p2, ?_, g2, ?_⟩
    · rw [g1, k1, List.flatten_cons]; simp
    · rw [← g3, ← k3]; simp

theorem feed_config {d e : Decoder} {cs : List Bytes} {o : Bytes} (hd : Fed d)
    (h : d.feed cs = some (o, e)) : SameConfig d.top e.top := by
  induction cs generalizing d o with
  | nil =>
    simp only [Decoder.feed, Option.some.injEq, Prod.mk.injEq] at h
    obtain ⟨rfl, rfl⟩ := h
    exact .refl _
  | cons a cs ih =>
    obtain ⟨L1, ns1, o1, o2, h1, h2, rfl⟩ := feed_cons_some h
    exact ((chunk_inv hd.chain a).1 _ _ _ h1).config.trans (ih (hd.next h1) h2)

/-- Without usable caches, no window is ever decoded. -/
theorem stuck_feed {d e : Decoder} {cs : List Bytes} {o : Bytes} (hd : Fed d) (hc : d.top.cache ≠ none) (hn : d.nested = [])
    (hi : d.top.cache.bind AddrCache.init = none) (hw : d.top.win = none) (hdec : d.top.decoded = [])
    (h : d.feed cs = some (o, e)) : o = [] ∧ e.top.unparsed = d.top.unparsed ++ cs.flatten := by
  induction cs generalizing d o with
  | nil =>
    simp only [Decoder.feed, Option.some.injEq, Prod.mk.injEq] at h
    obtain ⟨rfl, rfl⟩ := h
    exact ⟨rfl, by simp⟩
  | cons a cs ih =>
    obtain ⟨L1, ns1, o1, o2, h1, h2, rfl⟩ := feed_cons_some h
    have hfed := hd.next h1
    have hL := hd.chain.node
    rw [hn, chunkRun_windows hL hc, decodeChunkWindows_eq] at h1
    rcases winRun_stuck hL.inv hw hi (d.top.unparsed ++ a) with hr | hr
    · rw [hr] at h1
      simp only [ChunkResult.ok.injEq] at h1
      obtain ⟨rfl, rfl, rfl⟩ := h1
      obtain ⟨k1, k2⟩ := ih hfed hc rfl hi hw hdec h2
      refine ⟨?_, ?_⟩
      · rw [k1]
        simp [Level.text, hdec]
      · rw [k2]
        change d.top.unparsed ++ a ++ _ = _
        simp
    · rw [hr] at h1
      simp at h1

section
variable {d : Decoder} (hs : d.top.started = false) (ht : d.top.table = left)
    (allow : s.allowTarget = d.top.allowTarget) (window : s.maxWindow = d.top.maxWin)
    (file : s.maxFile = d.top.maxFile)
include hs ht allow window file

/-- What follows a complete file, in a complete file. -/
theorem after_prefix {dict T' : Bytes} {cs : List Bytes} (hne : cs.flatten ≠ [])
    (h' : d.decode dict cs = some T') :
    ∃ hdr ext c ws, cs.flatten = hdr ++ ws ∧ FileHeaderCode library hdr ext c left ∧
      Windows c ext library s dict [] ws T' ∧
      ∀ rest T, d.decode dict (singles (cs.flatten ++ rest)) = some T →
        ∃ T2, T = T' ++ T2 ∧ Windows c ext library s dict T' rest T2 ∧
          ∀ more T3, d.decode dict (singles (cs.flatten ++ rest ++ more)) = some T3 →
            ∃ T4, T3 = T ++ T4 ∧ Windows c ext library s dict T more T4 := by
  obtain ⟨e', h3, h3'⟩ := decode_some.1 (decode_singles hs h')
  have hf := Fed.start d hs dict
  have hf1 := hf.feed h3
  have hft := (FileTrack.start (tol := library) d hs ht allow window file dict).feed rfl rfl rfl hf h3
  simp only [List.nil_append, singles_flatten] at hft
  have hrest : ∀ (p rest T0 T : Bytes) (e0 : Decoder), p ≠ [] → (d.start dict).feed (singles p) = some (T0, e0) →
      d.decode dict (singles (p ++ rest)) = some T →
      ∃ o2 e, e0.feed (singles rest) = some (o2, e) ∧ (d.start dict).feed (singles (p ++ rest)) = some (T, e) ∧
        T = T0 ++ o2 ∧ Fed e ∧ e.nested = [] ∧ e.top.cache ≠ none ∧ e.top.win = none ∧ e.top.unparsed = [] := by
    intro p rest T0 T e0 hp k0 h
    obtain ⟨e, h2, h2'⟩ := decode_some.1 h
    have h2o := h2
    have hsing : singles (p ++ rest) = singles p ++ singles rest := by simp [singles]
    rw [hsing, feed_append] at h2
    obtain ⟨d1, o1, o2, k1, k2, rfl⟩ := h2
    rw [k0] at k1
    simp only [Option.some.injEq, Prod.mk.injEq] at k1
    obtain ⟨rfl, rfl⟩ := k1
    refine ⟨o2, e, k2, h2o, rfl, ?_⟩
    have hfe := hf.feed h2o
    have := (FileTrack.start (tol := library) d hs ht allow window file dict).feed rfl rfl rfl hf h2o
    rcases this.complete hfe h2' with ⟨q1, _⟩ | ⟨_, _, _, _, _, _, _, hn2, hu2, hc2, hw2, _⟩
    · rw [singles_flatten, List.nil_append] at q1
      exact absurd (List.append_eq_nil_iff.1 q1).1 hp
    · exact ⟨hfe, hn2, hc2, hw2, hu2⟩
  rcases hft.complete hf1 h3' with ⟨e1, e2⟩ | ⟨hdr, ext, c, ws, e1, hH, hw, hn, hu, hcc, hww, hlast⟩
  · exact absurd e1 hne
  rcases hlast with ⟨hB, hdd⟩ | ⟨hi, hdd, rfl, rfl⟩
  · have step : ∀ (e0 e : Decoder) (prev rest o : Bytes), Fed e0 → e0.nested = [] → e0.top.unparsed = [] →
        e0.top.cache ≠ none → Between c ext s dict e0.top prev →
        (s.allowTarget = false → e0.top.planned = none → e0.top.decoded = []) →
        e0.feed (singles rest) = some (o, e) → e.top.win = none → e.top.unparsed = [] →
        Windows c ext library s dict prev rest o ∧ Between c ext s dict e.top (prev ++ o) ∧
          (s.allowTarget = false → e.top.planned = none → e.top.decoded = []) := by
      intro e0 e prev rest o hf0 hn0 hu0 hc0 hB0 hd0 k hwin hun
      have hB' : Between c ext s dict e0.top (prev ++ []) := by rw [List.append_nil]; exact hB0
      have htr := hB'.track (tol := library) .nil (Nat.le_of_eq hf0.chain.node.out) hd0 e0.top.unparsed
      obtain ⟨ws2, u2, T2, p2, g1, g2, g3⟩ := htr.feed rfl (Or.inl rfl) hf0 hc0 hn0 k
      obtain ⟨Lc, b1, b2, _, b4, b5⟩ := g2.base
      obtain ⟨x1, x2⟩ := b4 hwin
      rw [hun] at x2
      subst x2
      have hp2 : p2 = [] := List.append_cancel_left (as := e.top.decoded) (by
        rw [List.append_nil]
        rw [← x1] at b2
        exact b2.symm)
      subst hp2
      rw [hu0, singles_flatten] at g1
      simp only [List.append_nil, List.nil_append] at g1 g3
      subst g3
      refine ⟨?_, ?_, ?_⟩
      · rw [← g1]
        exact g2.windows
      · rw [x1]; exact b1
      · intro ha hp
        have := b5 ha hp
        rw [← x1] at this
        exact this
    refine ⟨hdr, ext, c, ws, e1, hH, hw, ?_⟩
    intro rest T h
    obtain ⟨o2, e, k2, k2', rfl, f1, f2, f3, f4, f5⟩ := hrest cs.flatten rest T' T e' hne h3 h
    obtain ⟨s1, s2, s3⟩ := step e' e T' rest o2 hf1 hn hu hcc hB (fun ha _ => hdd ha) k2 f4 f5
    refine ⟨o2, rfl, s1, ?_⟩
    intro more T3 h3
    obtain ⟨o3, e3, k3, _, rfl, m1, m2, m3, m4, m5⟩ := hrest (cs.flatten ++ rest) more (T' ++ o2) T3 e
      (fun hx => hne (List.append_eq_nil_iff.1 hx).1) k2' h3
    exact ⟨o3, rfl, (step e e3 (T' ++ o2) more o3 f1 f2 f5 f3 s2 s3 k3 m4 m5).1⟩
  · refine ⟨hdr, ext, c, [], e1, hH, .nil, ?_⟩
    have stuck : ∀ rest T, d.decode dict (singles (cs.flatten ++ rest)) = some T → T = [] ∧ rest = [] := by
      intro rest T h
      obtain ⟨o2, e, k2, _, rfl, hwin⟩ := hrest cs.flatten rest [] T e' hne h3 h
      obtain ⟨r1, r2⟩ := stuck_feed hf1 hcc hn hi hww hdd k2
      rw [singles_flatten, hu, List.nil_append, hwin.2.2.2.2] at r2
      exact ⟨by simp [r1], r2.symm⟩
    intro rest T h
    obtain ⟨rfl, rfl⟩ := stuck rest T h
    refine ⟨[], rfl, .nil, ?_⟩
    intro more T3 h3
    rw [List.append_nil] at h3
    obtain ⟨rfl, rfl⟩ := stuck more T3 h3
    exact ⟨[], rfl, .nil⟩

/-- A complete prefix of a complete file. -/
theorem truncated_windows {dict T T' : Bytes} {cs : List Bytes} {rest : Bytes} (hne : cs.flatten ≠ [])
    (h : d.decode dict (singles (cs.flatten ++ rest)) = some T) (h' : d.decode dict cs = some T') :
    ∃ hdr ext c ws T2, cs.flatten = hdr ++ ws ∧ T = T' ++ T2 ∧ FileHeaderCode library hdr ext c left ∧
      Windows c ext library s dict [] ws T' ∧ Windows c ext library s dict T' rest T2 := by
  obtain ⟨hdr, ext, c, ws, h1, h2, h3, h4⟩ := after_prefix hs ht allow window file hne h'
  obtain ⟨T2, h5, h6, _⟩ := h4 rest T h
  exact ⟨hdr, ext, c, ws, T2, h1, h5, h2, h3, h6⟩

/-- The first byte of a window says that it takes its source from earlier target data. -/
theorem target_chunk (hal : s.allowTarget = false) {dict T b : Bytes} {x : UInt8} {cs : List Bytes}
    (hne : cs.flatten ≠ []) (h : d.decode dict cs = some T) (hx : x &&& 2 ≠ 0) :
    ∃ e, (d.start dict).feed cs = some (T, e) ∧ ∃ L, chunkRun e.top e.nested (x :: b) = .error L [] := by
  obtain ⟨e, h2, h2'⟩ := decode_some.1 h
  have hf := Fed.start d hs dict
  have hf1 := hf.feed h2
  have hft := (FileTrack.start (tol := library) d hs ht allow window file dict).feed rfl rfl rfl hf h2
  rcases hft.complete hf1 h2' with ⟨e1, e2⟩ | ⟨hdr, ext, c, ws, e1, hH, hw, hn, hu, hcc, hww, hlast⟩
  · exact absurd (by simpa using e1) hne
  refine ⟨e, h2, ?_⟩
  have hL := hf1.chain.node
  have hal' : e.top.allowTarget = false := by
    rw [(feed_config hf h2).allowTarget, start_fresh hs]
    exact allow ▸ hal
  have hbad : decodeWindow e.top (x :: b) = .error := by
    have hwi : parseWinIndicator e.top.dict.length e.top.decoded.length e.top.allowTarget (x :: b) = .error := by
      unfold parseWinIndicator
      rw [show parseByte (x :: b) = .ok x b from rfl, Parsed.bind_ok]
      rw [hal']
      have : ∀ y : UInt8, y &&& 2 ≠ 0 → y &&& (vcdSource ||| vcdTarget) = vcdTarget ∨
          y &&& (vcdSource ||| vcdTarget) = (vcdSource ||| vcdTarget) := by
        apply forall_byte; decide +kernel
      rcases this x hx with hq | hq
      · simp only [hq]
        rw [if_neg (by decide), if_pos trivial]
        rfl
      · simp only [hq]
        rw [if_neg (by decide), if_neg (by decide), if_pos trivial]
    have hh : readHeader e.top (x :: b) = .error := by
      unfold readHeader
      rw [hwi]
      rfl
    unfold decodeWindow
    rw [hww]
    simp only [hh]
  rw [hn, chunkRun_windows hL hcc, hu, List.nil_append, decodeChunkWindows_eq, winRun_eq hL.inv, if_neg (by simp), hbad]
  exact ⟨_, rfl⟩

/-- Target data kept between calls. -/
theorem retained (hal : s.allowTarget = false) {dict o : Bytes} {e : Decoder} {cs : List Bytes}
    (h : (d.start dict).feed cs = some (o, e)) : e.top.decoded.length ≤ s.maxWindow := by
  have hf := Fed.start d hs dict
  have hft := (FileTrack.start (tol := library) d hs ht allow window file dict).feed rfl rfl rfl hf h
  have hf1 := hf.feed h
  unfold FileTrack at hft
  generalize hns : e.nested = ns at hft
  generalize [] ++ cs.flatten = b at hft
  generalize [] ++ o = x at hft
  cases hft with
  | header conf table cache =>
    have := (hf1.chain.node.fresh cache).2.1
    rw [this]
    simp
  | table =>
    have := hf1.chain
    rw [hns] at this
    rw [this.2.1.decoded]
    simp
  | stuck _ _ _ decoded => rw [decoded]; simp
  | windows cache header track plan =>
    obtain ⟨Lc, b1, b2, _, b4, b5⟩ := track.base
    rw [b2, b5 hal hf1.planned, List.nil_append]
    have := track.size
    omega
end

theorem windows_error_decoded {L L' : Level} {t o : Bytes} (h : decodeChunkWindows L t = .error L' o) : L'.decoded = [] := by
  rw [decodeChunkWindows_eq] at h
  cases hw : winRun L t with
  | fault f => simp [hw] at h
  | done _ _ _ => simp [hw] at h
  | error o' =>
    simp only [hw, ChunkResult.error.injEq] at h
    rw [← h.1]; rfl

theorem tableStep_error_decoded {rec : Level → List Level → Bytes → ChunkResult} {L L' : Level} {ns : List Level} {t o : Bytes}
    (h : tableStep rec L ns t = .error L' o) : L'.decoded = [] := by
  unfold tableStep at h
  cases ns with
  | nil => exact windows_error_decoded h
  | cons n ns =>
    simp only at h
    cases hr : rec n ns t with
    | fault f => simp [hr] at h
    | error _ _ =>
      simp only [hr, failed, ChunkResult.error.injEq] at h
      rw [← h.1]; rfl
    | ok n' ns' text =>
      simp only [hr, afterCodeTableChunk] at h
      split at h
      · simp [endChunk_eq] at h
      · split at h
        · simp only [ChunkResult.error.injEq] at h
          rw [← h.1]; rfl
        · split at h
          · split at h
            · simp at h
            · exact windows_error_decoded h
          · simp only [ChunkResult.error.injEq] at h
            rw [← h.1]; rfl

theorem chunk_error_decoded {L L' : Level} {ns : List Level} {data o : Bytes} (hs : L.started = true)
    (h : chunkRun L ns data = .error L' o) : L'.decoded = [] := by
  rw [chunkRun_eq, chunkStep, if_neg (by rw [hs]; simp)] at h
  cases hc : L.cache with
  | some c =>
    rw [hc] at h
    exact tableStep_error_decoded h
  | none =>
    rw [hc] at h
    simp only at h
    cases hr : readFileHeader (L.unparsed ++ data) with
    | error =>
      simp only [hr, failed, ChunkResult.error.injEq] at h
      rw [← h.1]; rfl
    | endOfData => simp [hr, endChunk_eq] at h
    | ok hdr rest =>
      simp only [hr] at h
      exact tableStep_error_decoded h

theorem stopped_decoded {d e : Decoder} {cs : List Bytes} {rs : List DecoderReply} (hs : d.top.started = false)
    (hd : d.top.decoded = []) (h : d.calls (cs.map .chunk) = .ok (rs, e)) : e.top.decoded = [] := by
  induction cs generalizing d rs with
  | nil =>
    simp only [List.map_nil, Decoder.calls, Except.ok.injEq, Prod.mk.injEq] at h
    rw [← h.2]; exact hd
  | cons a cs ih =>
    rw [List.map_cons] at h
    obtain ⟨r, d1, rs', h1, h2, rfl⟩ := calls_cons_ok h
    rw [chunk_stopped hs] at h1
    simp only [Except.ok.injEq, Prod.mk.injEq] at h1
    obtain ⟨rfl, rfl⟩ := h1
    exact ih (d := { top := d.top.reset, nested := [] }) rfl (by exact hd) h2

/-- A sequence of chunk calls is a sequence of successful ones, followed, if it stops there, by failing
ones. -/
theorem calls_feed {d e : Decoder} {cs : List Bytes} {rs : List DecoderReply} (hd : Fed d)
    (h : d.calls (cs.map .chunk) = .ok (rs, e)) :
    (∃ o, d.feed cs = some (o, e)) ∨ e.top.decoded = [] := by
  induction cs generalizing d rs with
  | nil =>
    simp only [List.map_nil, Decoder.calls, Except.ok.injEq, Prod.mk.injEq] at h
    rw [← h.2]; exact Or.inl ⟨[], rfl⟩
  | cons a cs ih =>
    rw [List.map_cons] at h
    obtain ⟨r, d1, rs', h1, h2, rfl⟩ := calls_cons_ok h
    simp only [Decoder.call, decodeChunk_eq] at h1
    cases hr : chunkRun d.top d.nested a with
    | fault f => simp [hr] at h1
    | error L o =>
      simp only [hr, Except.ok.injEq, Prod.mk.injEq] at h1
      obtain ⟨rfl, rfl⟩ := h1
      have hst := ((chunk_inv hd.chain a).2.1 _ _ hr).stopped
      exact Or.inr (stopped_decoded hst (chunk_error_decoded hd.chain.node.started hr) h2)
    | ok L ns o =>
      simp only [hr, Except.ok.injEq, Prod.mk.injEq] at h1
      obtain ⟨rfl, rfl⟩ := h1
      rcases ih (hd.next hr) h2 with ⟨o', h3⟩ | h3
      · exact Or.inl ⟨_, feed_cons_of hr h3⟩
      · exact Or.inr h3

theorem feed_calls {d e : Decoder} {cs : List Bytes} {o : Bytes} (h : d.feed cs = some (o, e)) :
    ∃ rs, d.calls (cs.map .chunk) = .ok (rs, e) ∧ allOut rs = o ∧ ∀ r ∈ rs, r.ret = true := by
  induction cs generalizing d o with
  | nil =>
    simp only [Decoder.feed, Option.some.injEq, Prod.mk.injEq] at h
    obtain ⟨rfl, rfl⟩ := h
    exact ⟨[], rfl, rfl, by simp⟩
  | cons a cs ih =>
    obtain ⟨L1, ns1, o1, o2, h1, h2, rfl⟩ := feed_cons_some h
    obtain ⟨rs, h3, h4, h5⟩ := ih h2
    have hc : d.call (.chunk a) = .ok (⟨true, o1⟩, { top := L1, nested := ns1 }) := by
      simp only [Decoder.call, decodeChunk_eq, h1]
    refine ⟨⟨true, o1⟩ :: rs, ?_, ?_, ?_⟩
    · rw [List.map_cons, calls_cons hc, h3]
    · simp [allOut] at h4 ⊢
      exact h4
    · intro r hr
      simp only [List.mem_cons] at hr
      rcases hr with rfl | hr
      · rfl
      · exact h5 r hr

end Vcd
