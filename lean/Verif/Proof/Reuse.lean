import Verif.Proof.Deliver

/-!
# Settings and reuse
-/

namespace Vcd
open Spec

def Decoder.settings (d : Decoder) : Settings := ⟨d.top.maxFile, d.top.maxWin, d.top.allowTarget⟩

theorem settings_call {d d' : Decoder} {c : DecoderCall} {r : DecoderReply} (h : DecInv d)
    (ht : ∀ b, c = .setAllowTarget b → d.top.started = false) (hc : d.call c = .ok (r, d')) :
    d'.settings = d.settings.step c := by
  cases c with
  | start dict =>
    simp only [Decoder.call, Except.ok.injEq, Prod.mk.injEq] at hc
    rw [← hc.2]
    unfold Decoder.start Decoder.settings Level.start
    by_cases hs : d.top.started = true
    · rw [if_pos hs]; rfl
    · rw [if_neg hs, if_neg hs]; rfl
  | finish =>
    simp only [Decoder.call, Except.ok.injEq, Prod.mk.injEq] at hc
    rw [← hc.2]; rfl
  | setMaxFile n =>
    simp only [Decoder.call, Except.ok.injEq, Prod.mk.injEq] at hc
    rw [← hc.2]; rfl
  | setMaxWin n =>
    simp only [Decoder.call, Except.ok.injEq, Prod.mk.injEq] at hc
    rw [← hc.2]
    change (d.setMaxWin n).2.settings = if n ≤ 2147483647 then { d.settings with maxWindow := n } else d.settings
    unfold Decoder.setMaxWin
    by_cases hn : n > targetSizeLimit
    · have : ¬ n ≤ 2147483647 := by unfold targetSizeLimit at hn; omega
      rw [if_pos hn, if_neg this]
    · have : n ≤ 2147483647 := by unfold targetSizeLimit at hn; omega
      rw [if_neg hn, if_pos this]; rfl
  | setAllowTarget b =>
    simp only [Decoder.call, Except.ok.injEq, Prod.mk.injEq] at hc
    rw [← hc.2]
    unfold Decoder.setAllowTarget
    rw [ht b rfl]; rfl
  | chunk data =>
    by_cases hs : d.top.started = true
    · obtain ⟨h1, _⟩ := h hs
      obtain ⟨i1, i2, _⟩ := chunk_inv h1 data
      simp only [Decoder.call, decodeChunk_eq] at hc
      cases hr : chunkRun d.top d.nested data with
      | fault f => simp [hr] at hc
      | error L o =>
        simp only [hr, Except.ok.injEq, Prod.mk.injEq] at hc
        have := i2 _ _ hr
        rw [← hc.2]
        simp only [Decoder.settings, this.maxFile, this.maxWin, this.allowTarget]; rfl
      | ok L ns o =>
        simp only [hr, Except.ok.injEq, Prod.mk.injEq] at hc
        have := (i1 _ _ _ hr).config
        rw [← hc.2]
        simp only [Decoder.settings, this.maxFile, this.maxWin, this.allowTarget]; rfl
    · have hs' : d.top.started = false := by simpa using hs
      rw [chunk_stopped hs'] at hc
      simp only [Except.ok.injEq, Prod.mk.injEq] at hc
      rw [← hc.2]; rfl

theorem settings_calls {d d' : Decoder} {cs : List DecoderCall} {rs : List DecoderReply} (h : DecInv d)
    (ht : ∀ b, DecoderCall.setAllowTarget b ∉ cs) (hc : d.calls cs = .ok (rs, d')) :
    d'.settings = d.settings.after cs := by
  induction cs generalizing d rs with
  | nil =>
    simp only [Decoder.calls, Except.ok.injEq, Prod.mk.injEq] at hc
    rw [← hc.2]; rfl
  | cons c cs ih =>
    obtain ⟨r, d1, rs', h1, h2, _⟩ := calls_cons_ok hc
    rw [ih (h.call h1) (fun b hb => ht b (by simp [hb])) h2,
      settings_call h (fun b hb => absurd (by simp [hb]) (ht b)) h1]
    rfl

theorem settings_pre {d d' : Decoder} {cs : List DecoderCall} {rs : List DecoderReply} (h : DecInv d)
    (hs : d.top.started = false) (hi : ∀ c ∈ cs, DecoderCall.inner c = true) (hc : d.calls cs = .ok (rs, d')) :
    d'.settings = d.settings.after cs ∧ d'.top.started = false := by
  induction cs generalizing d rs with
  | nil =>
    simp only [Decoder.calls, Except.ok.injEq, Prod.mk.injEq] at hc
    rw [← hc.2]; exact ⟨rfl, hs⟩
  | cons c cs ih =>
    obtain ⟨r, d1, rs', h1, h2, _⟩ := calls_cons_ok hc
    have hs1 : d1.top.started = false := by
      obtain ⟨r', d1', k1, k2, _⟩ := stopped_call hs (c := c) (by
        intro dict hx
        have := hi c (by simp)
        rw [hx] at this
        simp [DecoderCall.inner] at this)
      rw [k1] at h1
      simp only [Except.ok.injEq, Prod.mk.injEq] at h1
      rw [← h1.2]; exact k2
    obtain ⟨e1, e2⟩ := ih (h.call h1) hs1 (fun c hx => hi c (by simp [hx])) h2
    refine ⟨?_, e2⟩
    rw [e1, settings_call h (fun _ _ => hs) h1]
    rfl

theorem settings_session {d d' : Decoder} {s : Session} {rs : List DecoderReply} (h : DecInv d)
    (hs : d.top.started = false) (ht : ∀ b, DecoderCall.setAllowTarget b ∉ s.body)
    (hc : d.calls s.calls = .ok (rs, d')) :
    d'.settings = d.settings.after s.calls ∧ d'.top.started = false := by
  have hc0 := hc
  unfold Session.calls at hc ⊢
  obtain ⟨rs1, d1, rs2, h1, h2, _⟩ := calls_append hc
  obtain ⟨e1, _⟩ := settings_pre h hs s.pre_inner h1
  have hd1 := h.calls h1
  have e2 := settings_calls hd1 (by
    intro b hb
    simp only [List.mem_cons, List.mem_append, List.not_mem_nil, or_false] at hb
    rcases hb with hb | hb | hb
    · simp at hb
    · exact ht b hb
    · simp at hb) h2
  refine ⟨by rw [e2, e1]; simp [Settings.after], ?_⟩
  rw [← List.cons_append] at h2
  obtain ⟨_, d3, _, _, h6, _⟩ := calls_append h2
  simp only [Decoder.calls, Decoder.call, Except.ok.injEq, Prod.mk.injEq] at h6
  rw [← h6.2]; rfl

theorem settings_sessions {d d' : Decoder} {ss : List Session} {rs : List DecoderReply} (h : DecInv d)
    (hs : d.top.started = false) (ht : ∀ s ∈ ss, ∀ b, DecoderCall.setAllowTarget b ∉ s.body)
    (hc : d.calls (ss.flatMap Session.calls) = .ok (rs, d')) :
    d'.settings = d.settings.after (ss.flatMap Session.calls) := by
  induction ss generalizing d rs with
  | nil =>
    simp only [List.flatMap_nil, Decoder.calls, Except.ok.injEq, Prod.mk.injEq] at hc
    rw [← hc.2]; rfl
  | cons s ss ih =>
    rw [List.flatMap_cons] at hc ⊢
    obtain ⟨rs1, d1, rs2, h1, h2, _⟩ := calls_append hc
    obtain ⟨e1, e2⟩ := settings_session h hs (ht s (by simp)) h1
    rw [ih (h.calls h1) e2 (fun s hx => ht s (by simp [hx])) h2, e1]
    simp [Settings.after]

theorem start_configured {d : Decoder} (h : PlainIdle d defaultTable []) (dict : Bytes) :
    d.start dict = (configured d.settings).start dict := by
  have hs := h.stopped
  have e : d.start dict = { top := d.top.start dict, nested := [] } := by simp [Decoder.start, hs]
  have e2 : d.top.start dict =
      { ({ d.top with unparsed := [], decoded := [] } : Level).reset with dict := dict, started := true } := by
    simp [Level.start, hs]
  rw [e, e2]
  obtain ⟨L, ns⟩ := d
  have ht : L.table = defaultTable := h.table
  have hstr : L.tableString = [] := h.str
  simp [configured, Decoder.start, Level.start, Level.reset, Decoder.settings, ht, hstr]

theorem start_after_finish {d : Decoder} (h : d.top.started = false) (dict : Bytes) :
    d.start dict = d.finish.2.start dict := by
  have e : d.start dict = { top := d.top.start dict, nested := [] } := by simp [Decoder.start, h]
  have e2 : d.top.start dict =
      { ({ d.top with unparsed := [], decoded := [] } : Level).reset with dict := dict, started := true } := by
    simp [Level.start, h]
  rw [e, e2]
  simp [Decoder.finish, Decoder.start, Level.start, Level.reset]

theorem calls_start_congr {d d' : Decoder} {dict : Bytes} (h : d.start dict = d'.start dict) (cs : List DecoderCall) :
    d.calls (.start dict :: cs) = d'.calls (.start dict :: cs) := by
  have h1 : d.call (.start dict) = .ok (⟨true, []⟩, d.start dict) := rfl
  have h2 : d'.call (.start dict) = .ok (⟨true, []⟩, d'.start dict) := rfl
  rw [calls_cons h1, calls_cons h2, h]

/-! ### Nesting -/

/-- A file header announcing a custom code table, with the default cache sizes. -/
def nestHeader : Bytes := [0xD6, 0xC3, 0xC4, 0, 2, 4, 3]

theorem nest_run (n : Nat) {L : Level} (h : NodeInv L) (hc : L.cache = none) (hu : L.unparsed = []) :
    ∃ L' ns, chunkRun L [] (List.replicate n nestHeader).flatten = .ok L' ns [] ∧ ns.length = n := by
  induction n generalizing L with
  | zero =>
    have hd := (h.fresh hc).2.1
    rw [chunkRun_eq, chunkStep, if_neg (by rw [h.started]; simp)]
    simp only [hc, hu, List.replicate_zero, List.flatten_nil, List.append_nil]
    have : readFileHeader [] = .endOfData := rfl
    simp only [this, endChunk_eq, Level.text, hd, List.drop_nil, List.append_nil]
    exact ⟨_, [], rfl, rfl⟩
  | succ n ih =>
    obtain ⟨f1, _⟩ := forCodeTable_inv
    obtain ⟨L1, ns1, h1, h2⟩ := ih f1 rfl rfl
    have hd := (h.fresh hc).2.1
    have hr : readFileHeader (nestHeader ++ (List.replicate n nestHeader).flatten) =
        .ok { version := 0, caches := some (4, 3) } (List.replicate n nestHeader).flatten := by
      generalize (List.replicate n nestHeader).flatten = s
      have hp : ∀ (b : UInt8) (s : Bytes), b = 4 ∨ b = 3 → parseInt32 (b :: s) = .ok b.toNat s := by
        rintro b s (rfl | rfl) <;>
        · unfold parseInt32 parseVarint32 parseVarint parseVarintLoop
          rw [if_pos (by decide)]
          rfl
      unfold nestHeader
      simp only [List.cons_append, List.nil_append]
      rw [readFileHeader_cons5, if_pos (by decide)]
      unfold fileHeaderTail
      rw [if_neg (by decide), if_pos (by decide), hp 4 _ (Or.inl rfl)]
      simp only [Parsed.bind]
      rw [hp 3 _ (Or.inr rfl)]
      rfl
    rw [chunkRun_eq, chunkStep, if_neg (by rw [h.started]; simp)]
    simp only [hc, hu, List.nil_append, List.replicate_succ, List.flatten_cons, hr, nestedFor, tableStep, h1]
    have hts : (L.withHeader { version := 0, caches := some (4, 3) }).tableString = [] := rfl
    have hdd : (L.withHeader { version := 0, caches := some (4, 3) }).decoded = [] := hd
    unfold afterCodeTableChunk
    simp only [hts, List.append_nil, List.length_nil]
    rw [if_pos (by decide), endChunk_eq]
    simp only [Level.text, hdd, List.drop_nil, List.append_nil]
    exact ⟨_, _, rfl, by simp [h2]⟩

end Vcd
