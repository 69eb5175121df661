import Verif.Proof.Undefined

/-!
# Window headers the decoder refuses (C93)
-/

namespace Vcd
open Spec

theorem stopped_replies (qs : List Bytes) {d : Decoder} (h : d.top.started = false) :
    ∃ d', d.calls (qs.map .chunk) = .ok (List.replicate qs.length ⟨false, []⟩, d') := by
  induction qs generalizing d with
  | nil => exact ⟨d, rfl⟩
  | cons q qs ih =>
    obtain ⟨d', k⟩ := ih (d := { top := d.top.reset, nested := [] }) rfl
    refine ⟨d', ?_⟩
    simp only [List.map_cons, Decoder.calls, chunk_stopped h (data := q), k, List.length_cons, List.replicate_succ]

/-- A window header that is refused, cut anywhere. -/
theorem refused_feed {w : Bytes} {qs : List Bytes} {d : Decoder} (hd : InHeader d) (ho : d.top.outPos = d.top.decoded.length)
    (hbad : ∀ L : Level, L.dict = d.top.dict → L.maxWin = d.top.maxWin → L.maxFile = d.top.maxFile → L.total = d.top.total →
      readHeader L w = .error)
    (hn : qs ≠ []) (hq : d.top.unparsed ++ qs.flatten = w) :
    ∃ rs d', d.calls (qs.map .chunk) = .ok (rs ++ [⟨false, []⟩], d') ∧ ∀ r ∈ rs, r.out = [] := by
  induction qs generalizing d with
  | nil => exact absurd rfl hn
  | cons q qs ih =>
    have e1 := hd.decodeChunk q
    have hself := hbad d.top rfl rfl rfl rfl
    have hno : ∀ hdr r, readHeader d.top (d.top.unparsed ++ q) ≠ .ok hdr r := by
      intro hdr r hr
      have := ((Stable.readHeader d.top).ok hr).2 qs.flatten
      simp only [List.flatten_cons, ← List.append_assoc] at hq
      rw [hq, hself] at this
      simp at this
    have hnext : readHeader d.top (d.top.unparsed ++ q) = .endOfData →
        decodeChunkWindows d.top (d.top.unparsed ++ q) = endChunk d.top [] (d.top.unparsed ++ q) [] →
        ∃ rs d', d.calls ((q :: qs).map .chunk) = .ok (rs ++ [⟨false, []⟩], d') ∧ ∀ r ∈ rs, r.out = [] := by
      intro hx hw
      rw [hw] at e1
      have hqs : qs ≠ [] := by
        rintro rfl
        simp only [List.flatten_cons, List.flatten_nil, List.append_nil] at hq
        rw [hq, hself] at hx
        simp at hx
      obtain ⟨rs, d', k1, k2⟩ := ih (d := { top := { d.top with unparsed := d.top.unparsed ++ q, outPos := d.top.decoded.length }, nested := [] })
        ⟨hd.started, hd.cache, hd.win, hd.planned, rfl⟩ rfl hbad hqs (by simpa using hq)
      refine ⟨⟨true, [] ++ d.top.decoded.drop d.top.outPos⟩ :: rs, d', ?_, by simpa [ho] using k2⟩
      simp only [List.map_cons, Decoder.calls, Decoder.call, e1, endChunk, Level.appendNewOutput, k1, List.cons_append]
    by_cases hz : d.top.unparsed ++ q = []
    · refine hnext (by rw [hz]; rfl) ?_
      unfold decodeChunkWindows
      rw [windowLoop, if_pos hz]
    · cases hx : readHeader d.top (d.top.unparsed ++ q) with
      | ok hdr r => exact absurd hx (hno hdr r)
      | endOfData =>
        refine hnext hx ?_
        unfold decodeChunkWindows
        rw [windowLoop, if_neg hz, decodeWindow, hd.win]
        simp only [hx]
      | error =>
        have hw : decodeChunkWindows d.top (d.top.unparsed ++ q) =
            .error ({ d.top with unparsed := [], decoded := [] } : Level).reset [] := by
          unfold decodeChunkWindows
          rw [windowLoop, if_neg hz, decodeWindow]
          simp only [hx]
          rw [hd.win]
        rw [hw] at e1
        obtain ⟨d', k⟩ := stopped_replies qs (d := { top := ({ d.top with unparsed := [], decoded := [] } : Level).reset, nested := [] }) rfl
        refine ⟨List.replicate qs.length ⟨false, []⟩, d', ?_, fun r hr => by rw [(List.mem_replicate.1 hr).2]⟩
        simp only [List.map_cons, Decoder.calls, Decoder.call, e1, k]
        rw [← List.replicate_succ', List.replicate_succ]

/-- The same after a delta that is accepted. -/
theorem refused_after {d : Decoder} (hs : d.top.started = false) {dict T : Bytes} {ps qs : List Bytes} (hne : ps.flatten ≠ [])
    (hp : d.decode dict ps = some T) (hn : qs ≠ [])
    (hbad : ∀ L : Level, L.dict = dict → L.maxWin = d.top.maxWin → L.maxFile = d.top.maxFile → L.total = T.length → T.length ≤ d.top.maxFile →
      readHeader L qs.flatten = .error) :
    ∃ before during, callerSees d (.start dict :: ps.map .chunk) = .ok before ∧
      callerSees d (.start dict :: ps.map .chunk ++ qs.map .chunk) = .ok (before ++ (during ++ [⟨false, []⟩])) ∧
      ∀ r ∈ during, r.out = [] := by
  obtain ⟨rs, e, h1, h2, h3, _, _, h4, h5, h6, h7, h8, h9⟩ := complete_between hs hne hp
  obtain ⟨rs', e', k1, k2⟩ := refused_feed (w := qs.flatten) (qs := qs) h2 h4 (by rw [h5, h6, h7, h8]; exact fun L a b c t => hbad L a b c t h9) hn (by rw [h3]; rfl)
  refine ⟨rs, rs', by simp only [callerSees, h1]; rfl, ?_, k2⟩
  unfold callerSees
  rw [calls_after h1, k1]
  rfl

theorem both_error {x : UInt8} (hx : x &&& 3 = 3) (L : Level) (c : Bytes) : readHeader L (x :: c) = .error := by
  have e3 : vcdSource ||| vcdTarget = 3 := by decide
  unfold readHeader
  have : parseWinIndicator L.dict.length L.decoded.length L.allowTarget (x :: c) = .error := by
    simp only [parseWinIndicator, parseByte, Parsed.bind_ok, e3, hx]
    rw [if_neg (by decide), if_neg (by decide), if_pos trivial]
  rw [this]
  rfl

theorem compressed_error {w : Bytes} (h : BeforeDeltaIndicator w) {x : UInt8} (hx : x &&& 7 ≠ 0) (L : Level) (t : Bytes) :
    readHeader L (w ++ x :: t) = .error := by
  obtain ⟨ind, segment, a, b, rfl, hs, ha, hb'⟩ := h
  have e : ind :: (segment ++ a ++ b) ++ x :: t = ([ind] ++ segment) ++ (a ++ (b ++ (x :: t))) := by simp
  rw [e]
  unfold readHeader
  rcases Fixed.indicator L.dict.length L.decoded.length L.allowTarget hs with ⟨v, h1⟩ | h1
  · rw [h1]
    simp only [Parsed.bind_ok]
    rcases Fixed.size ha with ⟨n, h2⟩ | h2
    · rw [h2]
      simp only [Parsed.bind_ok]
      rcases Fixed.size hb' with ⟨k, h3⟩ | h3
      · rw [h3]
        simp only [Parsed.bind_ok, parseDeltaIndicator, parseByte, if_pos hx, Parsed.bind_error, ite_self]
      · rw [h3]; rfl
    · rw [h2]; rfl
  · rw [h1]; rfl

theorem size_value {w : Bytes} (h : IsVarint w) : (∀ t, parseSize (w ++ t) = .ok (varintValue w) t) ∨ ∀ t, parseSize (w ++ t) = .error := by
  rcases Fixed.size h with ⟨v, k⟩ | k
  · left
    obtain ⟨bs, e1, _, e3, _⟩ := (parseInt32_ok_iff _ _ _).1 (k [])
    simp only [List.append_nil] at e1
    intro t
    rw [k, e1, e3]
  · exact .inr k

theorem source_error {x : UInt8} (hx : x &&& 3 = 1) {l p : Bytes} (hl : IsVarint l) (hp : IsVarint p) (L : Level)
    (hlong : varintValue p + varintValue l > L.dict.length) (t : Bytes) : readHeader L (x :: (l ++ p) ++ t) = .error := by
  have e3 : vcdSource ||| vcdTarget = 3 := by decide
  have hseg : parseSourceSegment L.dict.length (l ++ (p ++ t)) = .error := by
    unfold parseSourceSegment
    rcases size_value hl with k | k
    · rw [k, Parsed.bind_ok]
      by_cases h1 : varintValue l > L.dict.length
      · rw [if_pos h1]
      · rw [if_neg h1]
        rcases size_value hp with k | k
        · rw [k, Parsed.bind_ok]
          by_cases h2 : varintValue p ≥ L.dict.length ∧ varintValue l > 0
          · rw [if_pos h2]
          · rw [if_neg h2, if_pos hlong]
        · rw [k]; rfl
    · rw [k]; rfl
  unfold readHeader
  have : parseWinIndicator L.dict.length L.decoded.length L.allowTarget (x :: (l ++ p) ++ t) = .error := by
    simp only [parseWinIndicator, List.cons_append, List.append_assoc, parseByte, Parsed.bind_ok, e3, hx]
    rw [if_pos (by decide), hseg]
    rfl
  rw [this]
  rfl

theorem large_error {ind : UInt8} {segment a b : Bytes}
    (hs : if ind &&& 3 = 0 then segment = [] else ∃ length position, segment = length ++ position ∧ IsVarint length ∧ IsVarint position)
    (ha : IsVarint a) (hb : IsVarint b) (L : Level) (hlong : L.wouldExceed (varintValue b) = true) (t : Bytes) :
    readHeader L (ind :: (segment ++ a ++ b) ++ t) = .error := by
  have e : ind :: (segment ++ a ++ b) ++ t = ([ind] ++ segment) ++ (a ++ (b ++ t)) := by simp
  rw [e]
  unfold readHeader
  rcases Fixed.indicator L.dict.length L.decoded.length L.allowTarget hs with ⟨v, h1⟩ | h1
  · rw [h1]
    simp only [Parsed.bind_ok]
    rcases Fixed.size ha with ⟨n, h2⟩ | h2
    · rw [h2]
      simp only [Parsed.bind_ok]
      rcases size_value hb with h3 | h3
      · rw [h3, Parsed.bind_ok, if_pos hlong]
      · rw [h3]; rfl
    · rw [h2]; rfl
  · rw [h1]; rfl

end Vcd
