import Verif.Model.Decoder
import Verif.Proof.Bits

/-!
# Decoding with a longer dictionary

What a decoder does with a longer dictionary, as long as it accepts what it is given: the same.
-/

namespace Vcd

/-- The same decoder with `more` after its dictionary. -/
def Level.grow (more : Bytes) (L : Level) : Level := { L with dict := L.dict ++ more }

variable {more : Bytes}

theorem Level.grow_win (L : Level) : (L.grow more).win = L.win := rfl
theorem Level.grow_cache (L : Level) : (L.grow more).cache = L.cache := rfl

theorem parseSourceSegment_grow {n : Nat} (m : Nat) {s : Bytes} {p : Parsed (Nat × Nat)}
    (h : parseSourceSegment n s = p) (hp : p ≠ .error) : parseSourceSegment (n + m) s = p := by
  unfold parseSourceSegment at h ⊢
  cases h1 : parseSize s with
  | error => rw [h1] at h; exact absurd h.symm hp
  | endOfData => rw [h1] at h; exact h
  | ok len s1 =>
    simp only [h1, Parsed.bind] at h ⊢
    by_cases hl : len > n
    · rw [if_pos hl] at h; exact absurd h.symm hp
    · rw [if_neg hl] at h
      rw [if_neg (by omega)]
      cases h2 : parseSize s1 with
      | error => rw [h2] at h; exact absurd h.symm hp
      | endOfData => rw [h2] at h; exact h
      | ok pos s2 =>
        simp only [h2] at h ⊢
        by_cases c1 : pos ≥ n ∧ len > 0
        · rw [if_pos c1] at h; exact absurd h.symm hp
        · rw [if_neg c1] at h
          by_cases c2 : pos + len > n
          · rw [if_pos c2] at h; exact absurd h.symm hp
          · rw [if_neg c2] at h
            rw [if_neg (by omega), if_neg (by omega)]
            exact h

theorem parseSourceSegment_le {n : Nat} {s r : Bytes} {lp : Nat × Nat} (h : parseSourceSegment n s = .ok lp r) : lp.2 + lp.1 ≤ n := by
  unfold parseSourceSegment at h
  cases h1 : parseSize s with
  | error => rw [h1] at h; cases h
  | endOfData => rw [h1] at h; cases h
  | ok len s1 =>
    simp only [h1, Parsed.bind] at h
    split at h
    · cases h
    · cases h2 : parseSize s1 with
      | error => rw [h2] at h; cases h
      | endOfData => rw [h2] at h; cases h
      | ok pos s2 =>
        simp only [h2] at h
        split at h
        · cases h
        · split at h
          · cases h
          · cases h
            simp only
            omega

theorem parseWinIndicator_grow {n d : Nat} {a : Bool} (m : Nat) {s : Bytes} {p : Parsed (UInt8 × Nat × Nat)}
    (h : parseWinIndicator n d a s = p) (hp : p ≠ .error) : parseWinIndicator (n + m) d a s = p := by
  unfold parseWinIndicator at h ⊢
  cases h1 : parseByte s with
  | error => rw [h1] at h; exact h
  | endOfData => rw [h1] at h; exact h
  | ok ind s1 =>
    simp only [h1, Parsed.bind] at h ⊢
    by_cases c : ind &&& (vcdSource ||| vcdTarget) = vcdSource
    · rw [if_pos c] at h ⊢
      have key := parseSourceSegment_grow m (s := s1) (n := n) rfl
      cases h2 : parseSourceSegment n s1 with
      | error => rw [h2] at h; exact absurd h.symm hp
      | endOfData => rw [h2] at h key; rw [key (by simp)]; exact h
      | ok lp s2 => rw [h2] at h key; rw [key (by simp)]; exact h
    · rw [if_neg c] at h ⊢
      exact h

/-- A source segment of the dictionary is within it. -/
theorem parseWinIndicator_le {n d : Nat} {a : Bool} {s r : Bytes} {isp : UInt8 × Nat × Nat}
    (h : parseWinIndicator n d a s = .ok isp r) (hs : isp.1 &&& vcdSource ≠ 0) : isp.2.2 + isp.2.1 ≤ n := by
  unfold parseWinIndicator at h
  cases h1 : parseByte s with
  | error => rw [h1] at h; cases h
  | endOfData => rw [h1] at h; cases h
  | ok ind s1 =>
    simp only [h1, Parsed.bind] at h
    have bit : ∀ i : UInt8, (i &&& (vcdSource ||| vcdTarget) = vcdTarget → i &&& vcdSource = 0) ∧
        (¬ i &&& (vcdSource ||| vcdTarget) = vcdSource → ¬ i &&& (vcdSource ||| vcdTarget) = vcdTarget →
          ¬ i &&& (vcdSource ||| vcdTarget) = vcdSource ||| vcdTarget → i &&& vcdSource = 0) := by
      simp only [vcdSource, vcdTarget]
      exact forall_byte (by decide +kernel)
    split at h
    · cases h2 : parseSourceSegment n s1 with
      | error => rw [h2] at h; cases h
      | endOfData => rw [h2] at h; cases h
      | ok lp s2 =>
        rw [h2] at h
        cases h
        exact parseSourceSegment_le h2
    · rename_i c1
      split at h
      · rename_i c2
        split at h
        · cases h
        · cases h2 : parseSourceSegment d s1 with
          | error => rw [h2] at h; cases h
          | endOfData => rw [h2] at h; cases h
          | ok lp s2 =>
            rw [h2] at h
            cases h
            exact absurd ((bit ind).1 c2) hs
      · rename_i c2
        split at h
        · cases h
        · rename_i c3
          cases h
          exact absurd ((bit ind).2 c1 c2 c3) hs

theorem readHeader_grow {L : Level} {s : Bytes} {p : Parsed WinHeader} (h : readHeader L s = p) (hp : p ≠ .error) :
    readHeader (L.grow more) s = p := by
  unfold readHeader at h ⊢
  have e : (L.grow more).dict.length = L.dict.length + more.length := by simp [Level.grow]
  rw [e]
  have key := parseWinIndicator_grow (n := L.dict.length) (d := L.decoded.length) (a := L.allowTarget) more.length (s := s) rfl
  cases h1 : parseWinIndicator L.dict.length L.decoded.length L.allowTarget s with
  | error => rw [h1] at h; exact absurd h.symm hp
  | endOfData =>
    rw [h1] at h key
    rw [show (L.grow more).decoded = L.decoded from rfl, show (L.grow more).allowTarget = L.allowTarget from rfl, key (by simp)]
    exact h
  | ok isp s1 =>
    rw [h1] at h key
    rw [show (L.grow more).decoded = L.decoded from rfl, show (L.grow more).allowTarget = L.allowTarget from rfl, key (by simp), ← h]
    have hsrc : (if isp.1 &&& vcdSource ≠ 0 then (L.grow more).dict.drop isp.2.2
        else if isp.1 &&& vcdTarget ≠ 0 then L.decoded.drop isp.2.2 else []).take isp.2.1 =
        (if isp.1 &&& vcdSource ≠ 0 then L.dict.drop isp.2.2
        else if isp.1 &&& vcdTarget ≠ 0 then L.decoded.drop isp.2.2 else []).take isp.2.1 := by
      by_cases c : isp.1 &&& vcdSource ≠ 0
      · rw [if_pos c, if_pos c]
        have := parseWinIndicator_le h1 c
        simp only [Level.grow]
        rw [List.drop_append_of_le_length (by omega), List.take_append_of_le_length (by rw [List.length_drop]; omega)]
      · rw [if_neg c, if_neg c]
    simp only [Parsed.bind]
    rw [hsrc]
    rfl

/-- The same result with a longer dictionary. -/
def WinResult.grow (more : Bytes) : WinResult → WinResult
  | .ok L rest => .ok (L.grow more) rest
  | .endOfData L rest => .endOfData (L.grow more) rest
  | .error => .error
  | .fault f => .fault f

theorem decodeWindowBody_grow (L : Level) (w : OpenWindow) (cache : AddrCache) (s : Bytes) :
    decodeWindowBody (L.grow more) w cache s = (decodeWindowBody L w cache s).grow more := by
  unfold decodeWindowBody
  simp only [show (L.grow more).table = L.table from rfl, show (L.grow more).startPos = L.startPos from rfl,
    show (L.grow more).decoded = L.decoded from rfl]
  split
  · cases decodeBody { table := L.table, hdr := w.hdr, startPos := L.startPos }
      { pending := w.pending, inst := s.take w.expected, data := [], addr := [], cache := cache, decoded := L.decoded } with
    | ok b => rfl
    | error => rfl
    | fault f => rfl
    | endOfData b => dsimp only; split <;> rfl
  · cases decodeBody { table := L.table, hdr := w.hdr, startPos := L.startPos }
      { pending := w.pending, inst := (s.drop w.hdr.dataLen).take w.hdr.instLen, data := s.take w.hdr.dataLen,
        addr := (s.drop (w.hdr.dataLen + w.hdr.instLen)).take w.hdr.addrLen, cache := cache, decoded := L.decoded } <;> rfl

theorem decodeWindow_grow {L : Level} {s : Bytes} (h : decodeWindow L s ≠ .error) :
    decodeWindow (L.grow more) s = (decodeWindow L s).grow more := by
  unfold decodeWindow at h ⊢
  rw [Level.grow_win, Level.grow_cache]
  cases hw : L.win with
  | none =>
    simp only [hw] at h ⊢
    cases h1 : readHeader L s with
    | error => rw [h1] at h; exact absurd rfl h
    | endOfData => rw [readHeader_grow h1 (by simp)]; rfl
    | ok hdr rest =>
      rw [readHeader_grow h1 (by simp)]
      simp only
      cases L.cache.bind AddrCache.init with
      | none => rfl
      | some cache => exact decodeWindowBody_grow { L with total := L.total + hdr.targetLen } _ _ _
  | some w =>
    simp only
    split
    · rfl
    · cases L.cache with
      | none => rfl
      | some cache => exact decodeWindowBody_grow L _ _ _

theorem windowLoop_grow {fuel : Nat} {L L' : Level} {s out rest out' : Bytes} (h : windowLoop fuel L s out = .done L' rest out') :
    windowLoop fuel (L.grow more) s out = .done (L'.grow more) rest out' := by
  induction fuel generalizing L s out with
  | zero => cases h
  | succ fuel ih =>
    unfold windowLoop at h ⊢
    by_cases hs : s = []
    · rw [if_pos hs] at h ⊢; cases h; rfl
    · rw [if_neg hs] at h ⊢
      cases h1 : decodeWindow L s with
      | fault f => rw [h1] at h; cases h
      | error => rw [h1] at h; cases h
      | endOfData L1 r =>
        rw [decodeWindow_grow (by rw [h1]; simp), h1]
        rw [h1] at h
        cases h
        rfl
      | ok L1 r =>
        rw [decodeWindow_grow (by rw [h1]; simp), h1]
        rw [h1] at h
        simp only [WinResult.grow] at h ⊢
        rw [show (L1.grow more).reachedPlanned = L1.reachedPlanned from rfl, show (L1.grow more).allowTarget = L1.allowTarget from rfl]
        split
        · rename_i c; rw [if_pos c] at h; cases h; rfl
        · rename_i c
          rw [if_neg c] at h
          split
          · rename_i c2; rw [if_pos c2] at h; exact ih h
          · rename_i c2; rw [if_neg c2] at h; exact ih h

theorem decodeChunkWindows_grow {L L' : Level} {ns : List Level} {s out : Bytes} (h : decodeChunkWindows L s = .ok L' ns out) :
    decodeChunkWindows (L.grow more) s = .ok (L'.grow more) ns out := by
  unfold decodeChunkWindows at h ⊢
  cases h1 : windowLoop (s.length + 2) L s [] with
  | fault f => rw [h1] at h; cases h
  | error o => rw [h1] at h; cases h
  | done L1 r o =>
    rw [windowLoop_grow h1]
    rw [h1] at h
    simp only [endChunk, Level.appendNewOutput] at h ⊢
    cases h
    rfl

theorem afterCodeTableChunk_grow {L n L' : Level} {ns ns' : List Level} {s text out : Bytes}
    (h : afterCodeTableChunk L n ns s text = .ok L' ns' out) :
    afterCodeTableChunk (L.grow more) n ns s text = .ok (L'.grow more) ns' out := by
  unfold afterCodeTableChunk at h ⊢
  simp only [show (L.grow more).tableString = L.tableString from rfl, show (L.grow more).cache = L.cache from rfl,
    show (L.grow more).table = L.table from rfl] at h ⊢
  split
  · rename_i c
    rw [if_pos c] at h
    simp only [endChunk, Level.appendNewOutput] at h ⊢
    cases h
    rfl
  · rename_i c
    rw [if_neg c] at h
    split
    · rename_i c2; rw [if_pos c2] at h; cases h
    · rename_i c2
      rw [if_neg c2] at h
      split
      · rename_i c3
        rw [dif_pos c3] at h
        split
        · rename_i c4; rw [if_pos c4] at h; cases h
        · rename_i c4
          rw [if_neg c4] at h
          have k := decodeChunkWindows_grow (more := more) h
          simp only [Level.grow] at k ⊢
          exact k
      · rename_i c3; rw [dif_neg c3] at h; cases h

theorem decodeChunkFuel_grow {fuel : Nat} {L L' : Level} {nested ns' : List Level} {data out : Bytes}
    (h : decodeChunkFuel fuel L nested data = .ok L' ns' out) :
    decodeChunkFuel fuel (L.grow more) nested data = .ok (L'.grow more) ns' out := by
  cases fuel with
  | zero => cases h
  | succ fuel =>
    have table : ∀ (L : Level) (nested : List Level) (s : Bytes),
        (match nested with
        | [] => decodeChunkWindows L s
        | n :: ns =>
          match decodeChunkFuel fuel n ns s with
          | .fault f => .fault f
          | .error _ _ => .error ({ L with unparsed := [], decoded := [] } : Level).reset []
          | .ok n' ns' text => afterCodeTableChunk L n' ns' s text) = .ok L' ns' out →
        (match nested with
        | [] => decodeChunkWindows (L.grow more) s
        | n :: ns =>
          match decodeChunkFuel fuel n ns s with
          | .fault f => .fault f
          | .error _ _ => .error ({ (L.grow more) with unparsed := [], decoded := [] } : Level).reset []
          | .ok n' ns' text => afterCodeTableChunk (L.grow more) n' ns' s text) = .ok (L'.grow more) ns' out := by
      intro L nested s h
      cases nested with
      | nil => exact decodeChunkWindows_grow h
      | cons n ns =>
        simp only at h ⊢
        cases h1 : decodeChunkFuel fuel n ns s with
        | fault f => rw [h1] at h; cases h
        | error _ _ => rw [h1] at h; cases h
        | ok n' ns1 text =>
          rw [h1] at h
          exact afterCodeTableChunk_grow h
    unfold decodeChunkFuel at h ⊢
    rw [show (L.grow more).started = L.started from rfl, Level.grow_cache, show (L.grow more).unparsed = L.unparsed from rfl]
    by_cases c : (!L.started) = true
    · rw [if_pos c] at h; cases h
    · rw [if_neg c] at h ⊢
      cases hc : L.cache with
      | some k =>
        simp only [hc] at h ⊢
        exact table L nested _ h
      | none =>
        simp only [hc] at h ⊢
        cases h1 : readFileHeader (L.unparsed ++ data) with
        | error => rw [h1] at h; cases h
        | endOfData =>
          rw [h1] at h
          simp only [endChunk, Level.appendNewOutput] at h ⊢
          cases h
          rfl
        | ok hdr rest =>
          rw [h1] at h
          simp only at h ⊢
          cases h2 : hdr.caches with
          | none =>
            simp only [h2] at h ⊢
            exact table { L with version := hdr.version, cache := some AddrCache.newDefault } nested rest h
          | some p =>
            obtain ⟨near, same⟩ := p
            simp only [h2] at h ⊢
            exact table { L with version := hdr.version, cache := some (AddrCache.new near same), tableString := [] }
              [Level.forCodeTable] rest h

theorem feed_grow {d d' : Decoder} {cs : List Bytes} {out : Bytes} (h : d.feed cs = some (out, d')) :
    Decoder.feed { d with top := d.top.grow more } cs = some (out, { d' with top := d'.top.grow more }) := by
  induction cs generalizing d out with
  | nil => simp only [Decoder.feed, Option.some.injEq, Prod.mk.injEq] at h ⊢; obtain ⟨rfl, rfl⟩ := h; exact ⟨rfl, rfl⟩
  | cons c cs ih =>
    unfold Decoder.feed at h ⊢
    cases h1 : d.decodeChunk c with
    | fault f => rw [h1] at h; cases h
    | error _ _ => rw [h1] at h; cases h
    | ok L ns o =>
      rw [h1] at h
      have k : Decoder.decodeChunk { d with top := d.top.grow more } c = .ok (L.grow more) ns o := decodeChunkFuel_grow h1
      rw [k]
      simp only at h ⊢
      cases h2 : Decoder.feed { top := L, nested := ns } cs with
      | none => rw [h2] at h; cases h
      | some r =>
        obtain ⟨outs, d2⟩ := r
        rw [h2] at h
        simp only [Option.some.injEq, Prod.mk.injEq] at h
        obtain ⟨rfl, rfl⟩ := h
        have := ih h2
        simp only at this
        rw [this]

end Vcd
