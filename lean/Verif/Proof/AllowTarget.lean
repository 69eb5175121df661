import Verif.Proof.Api
import Verif.Proof.Deliver
import Verif.Spec.AllowTarget

/-!
# Decoders that keep the target and decoders that do not
-/

namespace Vcd
open Spec

/-! ### The body of a window, with earlier target data in front -/

theorem szSub_shift (p a b : Nat) : szSub (p + a) (p + b) = szSub a b := by
  unfold szSub
  by_cases h : b ≤ a
  · rw [if_pos h, if_pos (by omega)]; omega
  · rw [if_neg h, if_neg (by omega)]; omega

def BodyEnv.shift (p : Bytes) (env : BodyEnv) : BodyEnv := { env with startPos := p.length + env.startPos }

def Body.shift (p : Bytes) (b : Body) : Body := { b with decoded := p ++ b.decoded }

def shiftText (p : Bytes) : Except Fault Bytes → Except Fault Bytes
  | .ok d => .ok (p ++ d)
  | .error f => .error f

theorem targetBytesDecoded_shift (p : Bytes) (n : Nat) (d : Bytes) :
    Level.targetBytesDecoded (p.length + n) (p ++ d) = Level.targetBytesDecoded n d := by
  unfold Level.targetBytesDecoded
  rw [List.length_append, szSub_shift]

theorem appendTarget_shift (p : Bytes) (env : BodyEnv) (d b : Bytes) :
    appendTarget (env.shift p) (p ++ d) b = shiftText p (appendTarget env d b) := by
  unfold appendTarget BodyEnv.reserved BodyEnv.shift
  simp only [List.length_append]
  by_cases h : d.length + b.length > env.startPos + env.hdr.targetLen
  · rw [if_pos h, if_pos (by omega)]
    rfl
  · rw [if_neg h, if_neg (by omega), List.append_assoc]
    rfl

theorem readRange_shift (p d : Bytes) (pos n : Nat) : readRange (p ++ d) (p.length + pos) n = readRange d pos n := by
  unfold readRange
  rw [List.length_append, List.drop_append, List.drop_of_length_le (by omega), show p.length + pos - p.length = pos by omega, List.nil_append]
  by_cases h : pos + n > d.length
  · rw [if_pos h, if_pos (by omega)]
  · rw [if_neg h, if_neg (by omega)]

theorem copyTarget_shift (p : Bytes) (env : BodyEnv) (fuel : Nat) (d : Bytes) (address tbd size : Nat) :
    copyTarget (env.shift p) fuel (p ++ d) address tbd size = shiftText p (copyTarget env fuel d address tbd size) := by
  induction fuel generalizing d address tbd size with
  | zero => rfl
  | succ fuel ih =>
    rw [copyTarget, copyTarget]
    have e : (env.shift p).startPos + address = p.length + (env.startPos + address) := by
      change p.length + env.startPos + address = _
      omega
    rw [e]
    by_cases hc : size > szSub tbd address
    · rw [if_pos hc, if_pos hc]
      simp only [bind, Except.bind, readRange_shift]
      cases readRange d (env.startPos + address) (szSub tbd address) with
      | error f => rfl
      | ok bytes =>
        simp only [appendTarget_shift]
        cases appendTarget env d bytes with
        | error f => rfl
        | ok d' =>
          simp only [shiftText]
          exact ih _ _ _ _
    · rw [if_neg hc, if_neg hc]
      simp only [bind, Except.bind, readRange_shift]
      cases readRange d (env.startPos + address) size with
      | error f => rfl
      | ok bytes => exact appendTarget_shift p env d bytes

theorem copyBytes_shift (p : Bytes) (env : BodyEnv) (d : Bytes) (tbd address size : Nat) :
    copyBytes (env.shift p) (p ++ d) tbd address size = shiftText p (copyBytes env d tbd address size) := by
  unfold copyBytes
  have e : (env.shift p).hdr = env.hdr := rfl
  rw [e]
  by_cases h1 : address + size ≤ env.hdr.srcLen
  · rw [if_pos h1, if_pos h1]
    simp only [bind, Except.bind]
    cases readRange env.hdr.source address size with
    | error f => rfl
    | ok bytes => exact appendTarget_shift p env d bytes
  rw [if_neg h1, if_neg h1]
  by_cases h2 : address < env.hdr.srcLen
  · rw [if_pos h2, if_pos h2]
    simp only [bind, Except.bind]
    cases readRange env.hdr.source address (env.hdr.srcLen - address) with
    | error f => rfl
    | ok bytes =>
      simp only [appendTarget_shift]
      cases appendTarget env d bytes with
      | error f => rfl
      | ok d' => exact copyTarget_shift p env _ d' _ _ _
  · rw [if_neg h2, if_neg h2]
    exact copyTarget_shift p env _ d _ _ _

def Exec.shift (p : Bytes) : Exec → Exec
  | .ok rest c d => .ok rest c (p ++ d)
  | r => r

theorem ofAppend_shift (p rest : Bytes) (c : AddrCache) (r : Except Fault Bytes) :
    Exec.ofAppend rest c (shiftText p r) = (Exec.ofAppend rest c r).shift p := by
  cases r <;> rfl

theorem decodeAdd_shift (p : Bytes) (env : BodyEnv) (c : AddrCache) (d operand : Bytes) (n : Nat) :
    decodeAdd (env.shift p) c (p ++ d) operand n = (decodeAdd env c d operand n).shift p := by
  unfold decodeAdd
  by_cases h : n > operand.length
  · rw [if_pos h, if_pos h]
    rfl
  · rw [if_neg h, if_neg h, appendTarget_shift, ofAppend_shift]

theorem decodeRun_shift (p : Bytes) (env : BodyEnv) (c : AddrCache) (d operand : Bytes) (n : Nat) :
    decodeRun (env.shift p) c (p ++ d) operand n = (decodeRun env c d operand n).shift p := by
  unfold decodeRun
  cases operand with
  | nil => rfl
  | cons b rest => simp only [appendTarget_shift, ofAppend_shift]

theorem decodeCopy_shift (p : Bytes) (env : BodyEnv) (c : AddrCache) (d operand : Bytes) (n : Nat) (mode : UInt8) :
    decodeCopy (env.shift p) c (p ++ d) operand n mode = (decodeCopy env c d operand n mode).shift p := by
  unfold decodeCopy
  have e : (env.shift p).hdr = env.hdr := rfl
  have e5 : (env.shift p).startPos = p.length + env.startPos := rfl
  rw [e, e5]
  simp only [targetBytesDecoded_shift]
  cases c.decodeAddress (toInt32 (env.hdr.srcLen + Level.targetBytesDecoded env.startPos d)) mode.toNat operand with
  | error => rfl
  | endOfData => rfl
  | fault f => rfl
  | ok a r c' => simp only [copyBytes_shift, ofAppend_shift]

theorem execute_shift (p : Bytes) (env : BodyEnv) (b : Body) (ty : UInt8) (sz : Nat) (mode : UInt8) (r : Bytes) :
    execute (env.shift p) (b.shift p) ty sz mode r = (execute env b ty sz mode r).shift p := by
  unfold execute
  have e : (env.shift p).hdr = env.hdr := rfl
  have e1 : (b.shift p).data = b.data := rfl
  have e2 : (b.shift p).addr = b.addr := rfl
  have e3 : (b.shift p).cache = b.cache := rfl
  have e4 : (b.shift p).decoded = p ++ b.decoded := rfl
  rw [e, e1, e2, e3, e4]
  simp only [decodeAdd_shift, decodeRun_shift, decodeCopy_shift]
  by_cases h1 : ty = vcdAdd
  · rw [if_pos h1, if_pos h1]
  rw [if_neg h1, if_neg h1]
  by_cases h2 : ty = vcdRun
  · rw [if_pos h2, if_pos h2]
  rw [if_neg h2, if_neg h2]
  by_cases h3 : ty = vcdCopy
  · rw [if_pos h3, if_pos h3]
  rw [if_neg h3, if_neg h3]
  rfl

def BodyResult.shift (p : Bytes) : BodyResult → BodyResult
  | .ok b => .ok (b.shift p)
  | .endOfData b => .endOfData (b.shift p)
  | r => r

theorem bodyLoop_shift (p : Bytes) (env : BodyEnv) (fuel : Nat) (b : Body) :
    bodyLoop (env.shift p) fuel (b.shift p) = (bodyLoop env fuel b).shift p := by
  induction fuel generalizing b with
  | zero => rfl
  | succ fuel ih =>
    rw [bodyLoop, bodyLoop]
    have e : (env.shift p).hdr = env.hdr := rfl
    have e0 : (env.shift p).table = env.table := rfl
    have e1 : (b.shift p).pending = b.pending := rfl
    have e2 : (b.shift p).inst = b.inst := rfl
    have e3 : Level.targetBytesDecoded (env.shift p).startPos (b.shift p).decoded = Level.targetBytesDecoded env.startPos b.decoded :=
      targetBytesDecoded_shift p _ _
    rw [e, e0, e1, e2, e3]
    split
    · cases getNextInstruction env.table b.pending b.inst with
      | endOfData r q => rfl
      | error => rfl
      | inst ty sz mode r q =>
        simp only
        split
        · rfl
        · rw [execute_shift]
          cases execute env b ty sz mode r with
          | endOfData => rfl
          | error => rfl
          | fault f => rfl
          | ok rest c d =>
            simp only [Exec.shift]
            have : (b.shift p).afterExec (env.shift p) ty r q rest c (p ++ d) = (b.afterExec env ty r q rest c d).shift p := by
              unfold Body.afterExec
              rw [e]
              split
              · rfl
              · split <;> rfl
            rw [this]
            exact ih _
    · rfl

theorem decodeBody_shift (p : Bytes) (env : BodyEnv) (b : Body) :
    decodeBody (env.shift p) (b.shift p) = (decodeBody env b).shift p := by
  unfold decodeBody
  have e1 : (b.shift p).inst = b.inst := rfl
  rw [e1, bodyLoop_shift]
  cases bodyLoop env (2 * b.inst.length + 2) b with
  | endOfData b' => rfl
  | error => rfl
  | fault f => rfl
  | ok b' =>
    simp only [BodyResult.shift]
    have e : (env.shift p).hdr = env.hdr := rfl
    have e2 : (b'.shift p).inst = b'.inst := rfl
    have e3 : (b'.shift p).data = b'.data := rfl
    have e4 : (b'.shift p).addr = b'.addr := rfl
    have e5 : Level.targetBytesDecoded (env.shift p).startPos (b'.shift p).decoded = Level.targetBytesDecoded env.startPos b'.decoded :=
      targetBytesDecoded_shift p _ _
    have e6 : (b'.shift p).decoded.drop (env.shift p).startPos = b'.decoded.drop env.startPos := by
      change (p ++ b'.decoded).drop (p.length + env.startPos) = _
      rw [List.drop_append, List.drop_of_length_le (by omega), show p.length + env.startPos - p.length = env.startPos by omega, List.nil_append]
    rw [e, e2, e3, e4, e5, e6]
    by_cases h1 : Level.targetBytesDecoded env.startPos b'.decoded ≠ env.hdr.targetLen
    · rw [if_pos h1, if_pos h1]
    rw [if_neg h1, if_neg h1]
    by_cases h2 : (env.hdr.checksum.any fun c => computeAdler32 ((b'.decoded.drop env.startPos).take env.hdr.targetLen) != c) = true
    · rw [if_pos h2, if_pos h2]
    rw [if_neg h2, if_neg h2]
    by_cases h3 : b'.inst ≠ []
    · rw [if_pos h3, if_pos h3]
    rw [if_neg h3, if_neg h3]
    by_cases h4 : env.hdr.interleaved = true
    · rw [if_pos h4, if_pos h4]
    rw [if_neg h4, if_neg h4]
    by_cases h5 : b'.data ≠ []
    · rw [if_pos h5, if_pos h5]
    rw [if_neg h5, if_neg h5]
    by_cases h6 : b'.addr ≠ []
    · rw [if_pos h6, if_pos h6]
    rw [if_neg h6, if_neg h6]

/-! ### Windows -/

/-- A level that keeps all of the target, `p` being the part that another one has dropped. -/
def Level.keep (p : Bytes) (o : Nat) (L : Level) : Level :=
  { L with allowTarget := true, decoded := p ++ L.decoded, startPos := p.length + L.startPos, outPos := o }

def WinResult.keep (p : Bytes) (o : Nat) : WinResult → WinResult
  | .ok L r => .ok (L.keep p o) r
  | .endOfData L r => .endOfData (L.keep p o) r
  | r => r

theorem decodeWindowBody_keep (p : Bytes) (o : Nat) (L : Level) (w : OpenWindow) (c : AddrCache) (s : Bytes) :
    decodeWindowBody (L.keep p o) w c s = (decodeWindowBody L w c s).keep p o := by
  unfold decodeWindowBody
  simp only
  split
  · have := decodeBody_shift p { table := L.table, hdr := w.hdr, startPos := L.startPos }
      { pending := w.pending, inst := s.take w.expected, data := [], addr := [], cache := c, decoded := L.decoded }
    simp only [BodyEnv.shift, Body.shift] at this
    change (match decodeBody { table := L.table, hdr := w.hdr, startPos := p.length + L.startPos }
      { pending := w.pending, inst := s.take w.expected, data := [], addr := [], cache := c, decoded := p ++ L.decoded } with
      | .fault f => _ | .error => _ | .ok b' => _ | .endOfData b' => _) = _
    rw [this]
    cases decodeBody { table := L.table, hdr := w.hdr, startPos := L.startPos }
      { pending := w.pending, inst := s.take w.expected, data := [], addr := [], cache := c, decoded := L.decoded } with
    | fault f => rfl
    | error => rfl
    | ok b =>
      simp only [BodyResult.shift, Body.shift, WinResult.keep, Level.keep, List.length_append]
    | endOfData b =>
      simp only [BodyResult.shift, Body.shift]
      split <;> rfl
  · have := decodeBody_shift p { table := L.table, hdr := w.hdr, startPos := L.startPos }
      { pending := w.pending, inst := (s.drop w.hdr.dataLen).take w.hdr.instLen, data := s.take w.hdr.dataLen,
        addr := (s.drop (w.hdr.dataLen + w.hdr.instLen)).take w.hdr.addrLen, cache := c, decoded := L.decoded }
    simp only [BodyEnv.shift, Body.shift] at this
    change (match decodeBody { table := L.table, hdr := w.hdr, startPos := p.length + L.startPos }
      { pending := w.pending, inst := (s.drop w.hdr.dataLen).take w.hdr.instLen, data := s.take w.hdr.dataLen,
        addr := (s.drop (w.hdr.dataLen + w.hdr.instLen)).take w.hdr.addrLen, cache := c, decoded := p ++ L.decoded } with
      | .fault f => _ | .error => _ | .endOfData b' => _ | .ok b' => _) = _
    rw [this]
    cases decodeBody { table := L.table, hdr := w.hdr, startPos := L.startPos }
      { pending := w.pending, inst := (s.drop w.hdr.dataLen).take w.hdr.instLen, data := s.take w.hdr.dataLen,
        addr := (s.drop (w.hdr.dataLen + w.hdr.instLen)).take w.hdr.addrLen, cache := c, decoded := L.decoded } with
    | fault f => rfl
    | error => rfl
    | ok b =>
      simp only [BodyResult.shift, Body.shift, WinResult.keep, Level.keep, List.length_append]
    | endOfData b => rfl

/-- The input goes on with a window that takes its source from the target. -/
def TargetNext (s : Bytes) : Prop := ∃ x r, s = x :: r ∧ x &&& 3 = 2

theorem parseWinIndicator_keep (a b b' : Nat) (s : Bytes) :
    (parseWinIndicator a b true s = parseWinIndicator a b' false s ∧ ∀ v r, parseWinIndicator a b true s = .ok v r → v.1 &&& vcdTarget = 0) ∨
      (parseWinIndicator a b' false s = .error ∧ TargetNext s) := by
  cases s with
  | nil => exact Or.inl ⟨rfl, fun v r h => by simp [parseWinIndicator, parseByte, Parsed.bind] at h⟩
  | cons x r =>
    have bits : ∀ x : UInt8, (x &&& (vcdSource ||| vcdTarget) = vcdSource → x &&& vcdTarget = 0) ∧
        (x &&& (vcdSource ||| vcdTarget) = vcdTarget → x &&& 3 = 2) ∧
        (x &&& (vcdSource ||| vcdTarget) ≠ vcdSource → x &&& (vcdSource ||| vcdTarget) ≠ vcdTarget →
          x &&& (vcdSource ||| vcdTarget) ≠ vcdSource ||| vcdTarget → x &&& vcdTarget = 0) := by
      apply forall_byte
      decide +kernel
    obtain ⟨b1, b2, b3⟩ := bits x
    unfold parseWinIndicator
    simp only [parseByte, Parsed.bind_ok]
    by_cases h1 : x &&& (vcdSource ||| vcdTarget) = vcdSource
    · rw [if_pos h1, if_pos h1]
      refine Or.inl ⟨rfl, fun v q h => ?_⟩
      obtain ⟨lp, r2, _, h⟩ := Parsed.bind_eq_ok.1 h
      simp only [Parsed.ok.injEq] at h
      rw [← h.1]
      exact b1 h1
    rw [if_neg h1, if_neg h1]
    by_cases h2 : x &&& (vcdSource ||| vcdTarget) = vcdTarget
    · rw [if_pos h2, if_pos h2]
      exact Or.inr ⟨rfl, x, r, rfl, b2 h2⟩
    rw [if_neg h2, if_neg h2]
    by_cases h3 : x &&& (vcdSource ||| vcdTarget) = vcdSource ||| vcdTarget
    · rw [if_pos h3]
      exact Or.inl ⟨rfl, fun v q h => by simp at h⟩
    · rw [if_neg h3]
      refine Or.inl ⟨rfl, fun v q h => ?_⟩
      simp only [Parsed.ok.injEq] at h
      rw [← h.1]
      exact b3 h1 h2 h3

theorem readHeader_keep (p : Bytes) (o : Nat) {L : Level} (ha : L.allowTarget = false) (s : Bytes) :
    readHeader (L.keep p o) s = readHeader L s ∨ (readHeader L s = .error ∧ TargetNext s) := by
  unfold readHeader
  have e1 : (L.keep p o).dict = L.dict := rfl
  have e2 : (L.keep p o).allowTarget = true := rfl
  have e3 : (L.keep p o).allowExtensions = L.allowExtensions := rfl
  have e4 : ∀ n, (L.keep p o).wouldExceed n = L.wouldExceed n := fun _ => rfl
  rw [e1, e2, e3, ha]
  simp only [e4]
  rcases parseWinIndicator_keep L.dict.length (L.keep p o).decoded.length L.decoded.length s with ⟨h1, h2⟩ | ⟨h1, h2⟩
  · left
    rw [← h1]
    cases hp : parseWinIndicator L.dict.length (L.keep p o).decoded.length true s with
    | endOfData => rfl
    | error => rfl
    | ok isp r1 =>
      have ht := h2 _ _ hp
      simp only [Parsed.bind_ok, ht, ne_eq, not_true, if_false]
  · right
    rw [h1]
    exact ⟨rfl, h2⟩

theorem decodeWindow_keep (p : Bytes) (o : Nat) {L : Level} (ha : L.allowTarget = false) (s : Bytes) :
    decodeWindow (L.keep p o) s = (decodeWindow L s).keep p o ∨ (decodeWindow L s = .error ∧ L.win = none ∧ TargetNext s) := by
  unfold decodeWindow
  have e1 : (L.keep p o).win = L.win := rfl
  have e2 : (L.keep p o).cache = L.cache := rfl
  rw [e1, e2]
  cases hw : L.win with
  | none =>
    simp only
    rcases readHeader_keep p o ha s with h | ⟨h, ht⟩
    · left
      rw [h]
      cases readHeader L s with
      | endOfData => rfl
      | error => rfl
      | ok hdr rest =>
        simp only
        cases L.cache.bind AddrCache.init with
        | none => rfl
        | some c =>
          simp only
          exact decodeWindowBody_keep p o ({ L with total := L.total + hdr.targetLen } : Level) _ c rest
    · right
      rw [h]
      exact ⟨rfl, trivial, ht⟩
  | some w =>
    left
    simp only
    split
    · rfl
    · cases L.cache with
      | none => rfl
      | some c => exact decodeWindowBody_keep p o L w c s

/-! ### What has been decoded stays -/

theorem appendTarget_grows {env : BodyEnv} {d b d' : Bytes} (h : appendTarget env d b = .ok d') : d <+: d' := by
  unfold appendTarget at h
  split at h
  · simp at h
  · simp only [Except.ok.injEq] at h
    rw [← h]
    exact List.prefix_append _ _

theorem copyTarget_grows {env : BodyEnv} {fuel : Nat} {d d' : Bytes} {address tbd size : Nat}
    (h : copyTarget env fuel d address tbd size = .ok d') : d <+: d' := by
  induction fuel generalizing d address tbd size with
  | zero => simp [copyTarget] at h
  | succ fuel ih =>
    rw [copyTarget] at h
    split at h
    · simp only [bind, Except.bind] at h
      split at h
      · simp at h
      · split at h
        · simp at h
        · rename_i d1 h1
          exact (appendTarget_grows h1).trans (ih h)
    · simp only [bind, Except.bind] at h
      split at h
      · simp at h
      · exact appendTarget_grows h

theorem copyBytes_grows {env : BodyEnv} {d d' : Bytes} {tbd address size : Nat}
    (h : copyBytes env d tbd address size = .ok d') : d <+: d' := by
  unfold copyBytes at h
  split at h
  · simp only [bind, Except.bind] at h
    split at h
    · simp at h
    · exact appendTarget_grows h
  · split at h
    · simp only [bind, Except.bind] at h
      split at h
      · simp at h
      · split at h
        · simp at h
        · rename_i d1 h1
          exact (appendTarget_grows h1).trans (copyTarget_grows h)
    · exact copyTarget_grows h

theorem ofAppend_ok {rest : Bytes} {c c' : AddrCache} {r : Except Fault Bytes} {rest' d' : Bytes}
    (h : Exec.ofAppend rest c r = .ok rest' c' d') : r = .ok d' := by
  cases r with
  | error f => simp [Exec.ofAppend] at h
  | ok d =>
    simp only [Exec.ofAppend, Exec.ok.injEq] at h
    rw [h.2.2]

theorem decodeAdd_grows {env : BodyEnv} {c c' : AddrCache} {d operand rest d' : Bytes} {n : Nat}
    (h : decodeAdd env c d operand n = .ok rest c' d') : d <+: d' := by
  unfold decodeAdd at h
  split at h
  · simp at h
  · exact appendTarget_grows (ofAppend_ok h)

theorem decodeRun_grows {env : BodyEnv} {c c' : AddrCache} {d operand rest d' : Bytes} {n : Nat}
    (h : decodeRun env c d operand n = .ok rest c' d') : d <+: d' := by
  unfold decodeRun at h
  split at h
  · simp at h
  · exact appendTarget_grows (ofAppend_ok h)

theorem decodeCopy_grows {env : BodyEnv} {c c' : AddrCache} {d operand rest d' : Bytes} {n : Nat} {mode : UInt8}
    (h : decodeCopy env c d operand n mode = .ok rest c' d') : d <+: d' := by
  unfold decodeCopy at h
  simp only at h
  split at h
  · simp at h
  · simp at h
  · simp at h
  · exact copyBytes_grows (ofAppend_ok h)

theorem execute_grows {env : BodyEnv} {b : Body} {ty : UInt8} {sz : Nat} {mode : UInt8} {r rest d' : Bytes} {c : AddrCache}
    (h : execute env b ty sz mode r = .ok rest c d') : b.decoded <+: d' := by
  unfold execute at h
  simp only at h
  by_cases h1 : ty = vcdAdd
  · rw [if_pos h1] at h
    exact decodeAdd_grows h
  rw [if_neg h1] at h
  by_cases h2 : ty = vcdRun
  · rw [if_pos h2] at h
    exact decodeRun_grows h
  rw [if_neg h2] at h
  by_cases h3 : ty = vcdCopy
  · rw [if_pos h3] at h
    exact decodeCopy_grows h
  · rw [if_neg h3] at h
    simp at h

theorem afterExec_decoded (b : Body) (env : BodyEnv) (ty : UInt8) (r : Bytes) (q : Option UInt8) (rest : Bytes) (c : AddrCache) (d : Bytes) :
    (b.afterExec env ty r q rest c d).decoded = d := by
  unfold Body.afterExec
  split
  · rfl
  · split <;> rfl

theorem bodyLoop_grows {env : BodyEnv} {fuel : Nat} {b b' : Body} (h : bodyLoop env fuel b = .ok b' ∨ bodyLoop env fuel b = .endOfData b') :
    b.decoded <+: b'.decoded := by
  induction fuel generalizing b with
  | zero => simp [bodyLoop] at h
  | succ fuel ih =>
    rw [bodyLoop] at h
    split at h
    · cases hg : getNextInstruction env.table b.pending b.inst with
      | endOfData r q =>
        simp only [hg] at h
        simp only [reduceCtorEq, BodyResult.endOfData.injEq, false_or] at h
        rw [← h]
        exact List.prefix_refl _
      | error => simp [hg] at h
      | inst ty sz mode r q =>
        simp only [hg] at h
        split at h
        · simp at h
        · cases he : execute env b ty sz mode r with
          | endOfData =>
            simp only [he] at h
            simp only [reduceCtorEq, BodyResult.endOfData.injEq, false_or] at h
            rw [← h]
            exact List.prefix_refl _
          | error => simp [he] at h
          | fault f => simp [he] at h
          | ok rest c d =>
            simp only [he] at h
            have := ih h
            rw [afterExec_decoded] at this
            exact (execute_grows he).trans this
    · simp only [reduceCtorEq, BodyResult.ok.injEq, or_false] at h
      rw [← h]
      exact List.prefix_refl _

theorem decodeBody_grows {env : BodyEnv} {b b' : Body} (h : decodeBody env b = .ok b' ∨ decodeBody env b = .endOfData b') :
    b.decoded <+: b'.decoded := by
  unfold decodeBody at h
  cases hl : bodyLoop env (2 * b.inst.length + 2) b with
  | endOfData b1 =>
    simp only [hl, reduceCtorEq, BodyResult.endOfData.injEq, false_or] at h
    rw [← h]
    exact bodyLoop_grows (Or.inr hl)
  | error => simp [hl] at h
  | fault f => simp [hl] at h
  | ok b1 =>
    have : b1 = b' := by
      simp only [hl] at h
      repeat' split at h
      all_goals first | (simp at h; done) | (simpa using h)
    rw [← this]
    exact bodyLoop_grows (Or.inl hl)

/-- What `DecodeWindow` does to the target text: it adds to it. -/
structure Level.Grows (L L' : Level) : Prop where
  decoded : L.decoded <+: L'.decoded
  outPos : L'.outPos = L.outPos
  allowTarget : L'.allowTarget = L.allowTarget

theorem decodeWindowBody_grows {L L' : Level} {w : OpenWindow} {c : AddrCache} {s r : Bytes} :
    (decodeWindowBody L w c s = .ok L' r → L.Grows L' ∧ L'.startPos = L'.decoded.length) ∧
      (decodeWindowBody L w c s = .endOfData L' r → L.Grows L') := by
  unfold decodeWindowBody
  simp only
  split
  · generalize hb : decodeBody _ _ = b
    cases b with
    | fault f => simp
    | error => simp
    | ok b' =>
      have := decodeBody_grows (Or.inl hb)
      simp only [WinResult.ok.injEq, reduceCtorEq, false_implies, and_true]
      rintro ⟨rfl, _⟩
      exact ⟨⟨this, rfl, rfl⟩, rfl⟩
    | endOfData b' =>
      have := decodeBody_grows (Or.inr hb)
      simp only
      split
      · simp only [WinResult.endOfData.injEq, reduceCtorEq, false_implies, true_and]
        rintro ⟨rfl, _⟩
        exact ⟨this, rfl, rfl⟩
      · simp
  · generalize hb : decodeBody _ _ = b
    cases b with
    | fault f => simp
    | error => simp
    | endOfData b' => simp
    | ok b' =>
      have := decodeBody_grows (Or.inl hb)
      simp only [WinResult.ok.injEq, reduceCtorEq, false_implies, and_true]
      rintro ⟨rfl, _⟩
      exact ⟨⟨this, rfl, rfl⟩, rfl⟩

theorem decodeWindow_grows {L L' : Level} {s r : Bytes} :
    (decodeWindow L s = .ok L' r → L.Grows L' ∧ L'.startPos = L'.decoded.length) ∧
      (decodeWindow L s = .endOfData L' r → L.Grows L') := by
  unfold decodeWindow
  cases L.win with
  | none =>
    simp only
    cases readHeader L s with
    | endOfData =>
      simp only [WinResult.endOfData.injEq, reduceCtorEq, false_implies, true_and]
      rintro ⟨rfl, _⟩
      exact ⟨List.prefix_refl _, rfl, rfl⟩
    | error => simp
    | ok hdr rest =>
      simp only
      cases L.cache.bind AddrCache.init with
      | none => simp
      | some c =>
        simp only
        have := decodeWindowBody_grows (L := ({ L with total := L.total + hdr.targetLen } : Level)) (L' := L') (w := { hdr := hdr, expected := hdr.instLen, pending := none }) (c := c)
          (s := rest) (r := r)
        exact ⟨fun h => ⟨⟨(this.1 h).1.decoded, (this.1 h).1.outPos, (this.1 h).1.allowTarget⟩, (this.1 h).2⟩,
          fun h => ⟨(this.2 h).decoded, (this.2 h).outPos, (this.2 h).allowTarget⟩⟩
  | some w =>
    simp only
    split
    · simp
    · cases L.cache with
      | none => simp
      | some c => exact decodeWindowBody_grows

/-! ### The loop over windows -/

/-- A decoder that keeps the target outputs nothing before the end of the chunk. -/
theorem windowLoop_kept {fuel : Nat} {L : Level} (ha : L.allowTarget = true) (s out : Bytes) :
    (∀ o, windowLoop fuel L s out = .error o → o = out) ∧
      ∀ L' r o, windowLoop fuel L s out = .done L' r o → o = out ∧ L.decoded <+: L'.decoded ∧ L'.outPos = L.outPos := by
  induction fuel generalizing L s with
  | zero => simp [windowLoop]
  | succ fuel ih =>
    rw [windowLoop]
    split
    · refine ⟨by simp, ?_⟩
      intro L' r o h
      simp only [WindowsResult.done.injEq] at h
      obtain ⟨rfl, _, rfl⟩ := h
      exact ⟨rfl, List.prefix_refl _, rfl⟩
    · cases hw : decodeWindow L s with
      | fault f => simp
      | error => simp
      | endOfData L1 r1 =>
        have hg := decodeWindow_grows.2 hw
        refine ⟨by simp, ?_⟩
        intro L' r o h
        simp only [WindowsResult.done.injEq] at h
        obtain ⟨rfl, _, rfl⟩ := h
        exact ⟨rfl, hg.decoded, hg.outPos⟩
      | ok L1 r1 =>
        have hg := (decodeWindow_grows.1 hw).1
        simp only
        split
        · refine ⟨by simp, ?_⟩
          intro L' r o h
          simp only [WindowsResult.done.injEq] at h
          obtain ⟨rfl, _, rfl⟩ := h
          exact ⟨rfl, hg.decoded, hg.outPos⟩
        · rw [hg.allowTarget, ha]
          simp only [Bool.not_true, Bool.false_eq_true, if_false]
          obtain ⟨i1, i2⟩ := ih (hg.allowTarget.trans ha) r1
          refine ⟨i1, ?_⟩
          intro L' r o h
          obtain ⟨j1, j2, j3⟩ := i2 _ _ _ h
          exact ⟨j1, hg.decoded.trans j2, j3.trans hg.outPos⟩

/-- The decoders have decoded the same: `out` has been output by the one that drops the target. -/
structure Linked (p : Bytes) (o : Nat) (L : Level) (out : Bytes) : Prop where
  pos : L.outPos ≤ L.decoded.length
  pos' : o ≤ p.length + L.decoded.length
  text : out ++ L.decoded.drop L.outPos = (p ++ L.decoded).drop o

theorem Linked.grows {p out : Bytes} {o : Nat} {L L' : Level} (h : Linked p o L out) (hg : L.Grows L') : Linked p o L' out := by
  obtain ⟨t, ht⟩ := hg.decoded
  have h1 := h.pos
  have h2 := h.pos'
  refine ⟨by rw [← ht, hg.outPos, List.length_append]; omega, by rw [← ht, List.length_append]; omega, ?_⟩
  have e : ((p ++ L.decoded) ++ t).drop o = (p ++ L.decoded).drop o ++ t :=
    List.drop_append_of_le_length (by rw [List.length_append]; exact h.pos')
  rw [← ht, hg.outPos, List.drop_append_of_le_length h.pos, ← List.append_assoc, h.text, ← List.append_assoc, e]

theorem Linked.flush {p out : Bytes} {o : Nat} {L : Level} (h : Linked p o L out) : Linked (p ++ L.decoded) o L.flush.1 (out ++ L.flush.2) := by
  have h2 := h.pos'
  refine ⟨Nat.zero_le _, by simp [Level.flush]; omega, ?_⟩
  simp only [Level.flush, List.drop_zero, List.append_nil]
  exact h.text

/-- How the loops over windows of the two decoders compare. -/
inductive LoopKeep (o : Nat) : WindowsResult → WindowsResult → Prop
  | done {L r out p} : L.allowTarget = false → Linked p o L out → LoopKeep o (.done L r out) (.done (L.keep p o) r [])
  | fault {f} : LoopKeep o (.fault f) (.fault f)
  | errors {out} : LoopKeep o (.error out) (.error [])
  | refused {out L' r} : out <+: L'.decoded.drop L'.outPos → LoopKeep o (.error out) (.done L' r [])
  | faulty {out f} : LoopKeep o (.error out) (.fault f)

theorem windowLoop_keep (fuel : Nat) {p out : Bytes} {o : Nat} {L : Level} (ha : L.allowTarget = false) (hl : Linked p o L out) (s : Bytes) :
    LoopKeep o (windowLoop fuel L s out) (windowLoop fuel (L.keep p o) s []) := by
  induction fuel generalizing L s p out with
  | zero => exact .fault
  | succ fuel ih =>
    by_cases hs : s = []
    · rw [windowLoop, windowLoop, if_pos hs, if_pos hs]
      exact .done ha hl
    rcases decodeWindow_keep p o ha s with h | ⟨h, _⟩
    · rw [windowLoop, windowLoop, if_neg hs, if_neg hs, h]
      cases hw : decodeWindow L s with
      | fault f => exact .fault
      | error => exact .errors
      | endOfData L' r =>
        have hg := decodeWindow_grows.2 hw
        exact .done (hg.allowTarget.trans ha) (hl.grows hg)
      | ok L' r =>
        obtain ⟨hg, hsp⟩ := decodeWindow_grows.1 hw
        have ha' := hg.allowTarget.trans ha
        have hl' := hl.grows hg
        simp only [WinResult.keep]
        have e1 : (L'.keep p o).reachedPlanned = L'.reachedPlanned := rfl
        have e2 : (L'.keep p o).allowTarget = true := rfl
        rw [e1, e2, ha']
        split
        · exact .done ha' hl'
        · simp only [Bool.not_false, Bool.not_true, if_true, Bool.false_eq_true, if_false]
          have e3 : L'.keep p o = L'.flush.1.keep (p ++ L'.decoded) o := by
            simp [Level.keep, Level.flush, hsp]
          rw [e3]
          exact ih (L := L'.flush.1) ha' hl'.flush r
    · have hA : windowLoop (fuel + 1) L s out = .error out := by
        rw [windowLoop, if_neg hs, h]
      rw [hA]
      obtain ⟨k1, k2⟩ := windowLoop_kept (fuel := fuel + 1) (L := L.keep p o) rfl s []
      cases hr : windowLoop (fuel + 1) (L.keep p o) s [] with
      | fault f => exact .faulty
      | error o' =>
        rw [k1 _ hr]
        exact .errors
      | done L' r o' =>
        obtain ⟨rfl, j2, j3⟩ := k2 _ _ _ hr
        refine .refused ?_
        obtain ⟨t, ht⟩ := j2
        have hp := hl.pos'
        rw [← ht, j3]
        change out <+: ((p ++ L.decoded) ++ t).drop o
        rw [List.drop_append_of_le_length (by rw [List.length_append]; exact hp), ← hl.text, List.append_assoc]
        exact List.prefix_append _ _

/-! ### Chunks -/

/-- How `DecodeChunk` compares in the two decoders. -/
inductive ChunkKeep : ChunkResult → ChunkResult → Prop
  | ok {L ns out} (p : Bytes) : L.allowTarget = false → L.outPos = L.decoded.length →
      ChunkKeep (.ok L ns out) (.ok (L.keep p (p.length + L.decoded.length)) ns out)
  | fault {f} : ChunkKeep (.fault f) (.fault f)
  | errors {L out} (p : Bytes) : L.allowTarget = false → L.started = false → ChunkKeep (.error L out) (.error (L.keep p 0) [])
  | refused {L L' ns out out'} : out <+: out' → ChunkKeep (.error L out) (.ok L' ns out')
  | faulty {L out f} : ChunkKeep (.error L out) (.fault f)

theorem endChunk_keep {p out : Bytes} {o : Nat} {L : Level} (ha : L.allowTarget = false) (hl : Linked p o L out) (ns : List Level) (rest : Bytes) :
    ChunkKeep (endChunk L ns rest out) (endChunk (L.keep p o) ns rest []) := by
  have := ChunkKeep.ok (L := ({ L with unparsed := rest, outPos := L.decoded.length } : Level)) (ns := ns) (out := out ++ L.decoded.drop L.outPos) p ha rfl
  unfold endChunk
  simp only [Level.appendNewOutput, List.nil_append]
  have e : (L.keep p o).decoded.drop (L.keep p o).outPos = out ++ L.decoded.drop L.outPos := hl.text.symm
  have e2 : (({ L with unparsed := rest, outPos := L.decoded.length } : Level).keep p (p.length + L.decoded.length)) =
      { (L.keep p o) with unparsed := rest, outPos := (L.keep p o).decoded.length } := by
    simp [Level.keep]
  rw [e2] at this
  rw [e]
  exact this

theorem decodeChunkWindows_keep {p : Bytes} {o : Nat} {L : Level} (ha : L.allowTarget = false) (hl : Linked p o L []) (s : Bytes) :
    ChunkKeep (decodeChunkWindows L s) (decodeChunkWindows (L.keep p o) s) := by
  have := windowLoop_keep (s.length + 2) ha hl s
  unfold decodeChunkWindows
  generalize windowLoop (s.length + 2) L s [] = R at this
  generalize windowLoop (s.length + 2) (L.keep p o) s [] = R' at this
  cases this with
  | done h1 h2 => exact endChunk_keep h1 h2 _ _
  | fault => exact .fault
  | errors => exact .errors (L := ({ L with unparsed := [], decoded := [] } : Level).reset) [] ha rfl
  | refused h => exact .refused h
  | faulty => exact .faulty

theorem failed_keep {p : Bytes} {o : Nat} {L : Level} (ha : L.allowTarget = false) : ChunkKeep (failed L) (failed (L.keep p o)) :=
  .errors (L := ({ L with unparsed := [], decoded := [] } : Level).reset) [] ha rfl

theorem afterCodeTableChunk_keep {p : Bytes} {o : Nat} {L : Level} (ha : L.allowTarget = false) (hl : Linked p o L []) (n : Level) (ns : List Level)
    (s text : Bytes) : ChunkKeep (afterCodeTableChunk L n ns s text) (afterCodeTableChunk (L.keep p o) n ns s text) := by
  unfold afterCodeTableChunk
  simp only
  have e1 : (L.keep p o).tableString = L.tableString := rfl
  have e2 : (L.keep p o).cache = L.cache := rfl
  have e3 : (L.keep p o).table = L.table := rfl
  rw [e1, e2, e3]
  split
  · exact endChunk_keep (L := ({ L with tableString := L.tableString ++ text } : Level)) ha ⟨hl.pos, hl.pos', hl.text⟩ _ _
  · split
    · exact failed_keep (L := ({ L with tableString := L.tableString ++ text } : Level)) (p := p) (o := o) ha
    · split
      · split
        · exact .fault
        · exact decodeChunkWindows_keep (L := ({ L with tableString := [], table := _ } : Level)) ha ⟨hl.pos, hl.pos', hl.text⟩ _
      · exact failed_keep (L := ({ L with tableString := L.tableString ++ text } : Level)) (p := p) (o := o) ha

theorem tableStep_keep {p : Bytes} {o : Nat} {L : Level} (ha : L.allowTarget = false) (hl : Linked p o L [])
    (rec : Level → List Level → Bytes → ChunkResult) (ns : List Level) (s : Bytes) :
    ChunkKeep (tableStep rec L ns s) (tableStep rec (L.keep p o) ns s) := by
  cases ns with
  | nil => exact decodeChunkWindows_keep ha hl s
  | cons n ns =>
    unfold tableStep
    simp only
    cases rec n ns s with
    | fault x => exact .fault
    | error L' o => exact failed_keep ha
    | ok n' ns' text => exact afterCodeTableChunk_keep ha hl n' ns' s text

theorem chunkRun_keep {p : Bytes} {o : Nat} {L : Level} (ha : L.allowTarget = false) (hl : L.started = true → Linked p o L []) (ns : List Level)
    (data : Bytes) : ChunkKeep (chunkRun L ns data) (chunkRun (L.keep p o) ns data) := by
  rw [chunkRun_eq, chunkRun_eq]
  unfold chunkStep
  have e1 : (L.keep p o).started = L.started := rfl
  have e2 : (L.keep p o).cache = L.cache := rfl
  have e3 : (L.keep p o).unparsed = L.unparsed := rfl
  rw [e1, e2, e3]
  by_cases hs : L.started = false
  · rw [if_pos hs, if_pos hs]
    have := ChunkKeep.errors (L := L.reset) (out := []) p ha rfl
    have e : (L.keep p o).reset = L.reset.keep p 0 := by simp [Level.keep, Level.reset]
    rw [e]
    exact this
  · rw [if_neg hs, if_neg hs]
    have hl := hl (by simpa using hs)
    cases L.cache with
    | some c => exact tableStep_keep ha hl chunkRun ns _
    | none =>
      simp only
      cases readFileHeader (L.unparsed ++ data) with
      | error => exact failed_keep ha
      | endOfData => exact endChunk_keep ha hl _ _
      | ok hdr rest =>
        simp only
        have : (L.keep p o).withHeader hdr = (L.withHeader hdr).keep p o := by
          unfold Level.withHeader
          split <;> rfl
        rw [this]
        have ha' : (L.withHeader hdr).allowTarget = false := by
          unfold Level.withHeader
          split <;> exact ha
        have hl' : Linked p o (L.withHeader hdr) [] := by
          unfold Level.withHeader
          split <;> exact ⟨hl.pos, hl.pos', hl.text⟩
        exact tableStep_keep ha' hl' chunkRun _ _

/-! ### Calls -/

/-- The decoders have been told the same, except about `VCD_TARGET`. -/
structure SameButTarget (d d' : Decoder) : Prop where
  allowTarget : d.top.allowTarget = false
  nested : d'.nested = d.nested
  top : ∃ p o, d'.top = d.top.keep p o ∧ (d.top.started = true → d.top.outPos = d.top.decoded.length ∧ o = p.length + d.top.decoded.length)

theorem SameButTarget.call {d d' e e' : Decoder} {c : DecoderCall} {r r' : DecoderReply} (hd : SameButTarget d d') (hc : ∀ b, c ≠ .setAllowTarget b)
    (h : d.call c = .ok (r, e)) (h' : d'.call c = .ok (r', e')) :
    (r = r' ∧ SameButTarget e e') ∨ ∃ data, c = .chunk data ∧ r.ret = false ∧
      ((r'.ret = false ∧ r'.out = [] ∧ SameButTarget e e') ∨ (r'.ret = true ∧ r.out <+: r'.out)) := by
  obtain ⟨ha, hn, p, o, ht, hp⟩ := hd
  obtain ⟨top, nested⟩ := d
  obtain ⟨top', nested'⟩ := d'
  simp only at ha hn ht hp
  subst hn ht
  cases c with
  | setAllowTarget b => exact absurd rfl (hc b)
  | start dict =>
    left
    simp only [Decoder.call, Except.ok.injEq, Prod.mk.injEq] at h h'
    rw [← h.1, ← h'.1, ← h.2, ← h'.2]
    refine ⟨rfl, ?_⟩
    unfold Decoder.start
    simp only
    have e1 : (top.keep p o).started = top.started := rfl
    rw [e1]
    by_cases hs : top.started = true
    · rw [if_pos hs, if_pos hs]
      exact ⟨ha, rfl, p, o, rfl, hp⟩
    · rw [if_neg hs, if_neg hs]
      unfold Level.start
      rw [e1, if_neg hs, if_neg hs]
      exact ⟨ha, rfl, [], 0, rfl, fun _ => ⟨rfl, rfl⟩⟩
  | finish =>
    left
    simp only [Decoder.call, Except.ok.injEq, Prod.mk.injEq] at h h'
    rw [← h.1, ← h'.1, ← h.2, ← h'.2]
    refine ⟨rfl, ?_⟩
    exact ⟨ha, rfl, p, 0, by simp [Decoder.finish, Level.reset, Level.keep], fun hx => by simp [Decoder.finish, Level.reset] at hx⟩
  | setMaxFile n =>
    left
    simp only [Decoder.call, Except.ok.injEq, Prod.mk.injEq] at h h'
    rw [← h.1, ← h'.1, ← h.2, ← h'.2]
    exact ⟨rfl, ha, rfl, p, o, rfl, hp⟩
  | setMaxWin n =>
    left
    simp only [Decoder.call, Except.ok.injEq, Prod.mk.injEq] at h h'
    rw [← h.1, ← h'.1, ← h.2, ← h'.2]
    unfold Decoder.setMaxWin
    by_cases hx : n > targetSizeLimit
    · rw [if_pos hx, if_pos hx]
      exact ⟨rfl, ha, rfl, p, o, rfl, hp⟩
    · rw [if_neg hx, if_neg hx]
      exact ⟨rfl, ha, rfl, p, o, rfl, hp⟩
  | chunk data =>
    simp only [Decoder.call, decodeChunk_eq] at h h'
    have hl : top.started = true → Linked p o top [] := by
      intro hs
      obtain ⟨h1, h2⟩ := hp hs
      refine ⟨by omega, by omega, ?_⟩
      rw [h1, h2, List.drop_length, ← List.length_append, List.drop_length]
      rfl
    have hk := chunkRun_keep ha hl nested' data
    generalize chunkRun top nested' data = R at h hk
    generalize chunkRun (top.keep p o) nested' data = R' at h' hk
    cases hk with
    | ok q h1 h2 =>
      left
      simp only [Except.ok.injEq, Prod.mk.injEq] at h h'
      rw [← h.1, ← h'.1, ← h.2, ← h'.2]
      exact ⟨rfl, h1, rfl, q, _, rfl, fun _ => ⟨h2, rfl⟩⟩
    | fault => simp at h
    | errors q h1 h2 =>
      right
      simp only [Except.ok.injEq, Prod.mk.injEq] at h h'
      rw [← h.1, ← h'.1, ← h.2, ← h'.2]
      exact ⟨data, rfl, rfl, Or.inl ⟨rfl, rfl, h1, rfl, q, _, rfl, fun hx => by rw [h2] at hx; simp at hx⟩⟩
    | refused h1 =>
      right
      simp only [Except.ok.injEq, Prod.mk.injEq] at h h'
      rw [← h.1, ← h'.1]
      exact ⟨data, rfl, rfl, Or.inr ⟨rfl, h1⟩⟩
    | faulty => simp at h'

theorem SameButTarget.calls {d d' e e' : Decoder} {cs : List DecoderCall} {rs rs' : List DecoderReply} (hd : SameButTarget d d')
    (hc : ∀ c ∈ cs, ∀ b, c ≠ .setAllowTarget b) (h : d.calls cs = .ok (rs, e)) (h' : d'.calls cs = .ok (rs', e')) :
    OnlyRefuses cs rs rs' := by
  induction cs generalizing d d' rs rs' with
  | nil =>
    simp only [Decoder.calls, Except.ok.injEq, Prod.mk.injEq] at h h'
    rw [← h.1, ← h'.1]
    exact True.intro
  | cons c cs ih =>
    obtain ⟨r, d1, rs1, h1, h2, rfl⟩ := calls_cons_ok h
    obtain ⟨r', d1', rs1', h1', h2', rfl⟩ := calls_cons_ok h'
    have hc' : ∀ c ∈ cs, ∀ b, c ≠ .setAllowTarget b := fun c hm => hc c (List.mem_cons_of_mem _ hm)
    rcases hd.call (hc c (List.mem_cons_self ..)) h1 h1' with ⟨k1, k2⟩ | ⟨data, k1, k2, ⟨k3, k4, k5⟩ | ⟨k3, k4⟩⟩
    · exact Or.inl ⟨k1, ih k2 hc' h2 h2'⟩
    · exact Or.inr ⟨data, k1, k2, Or.inl ⟨k3, k4, ih k5 hc' h2 h2'⟩⟩
    · exact Or.inr ⟨data, k1, k2, Or.inr ⟨k3, k4⟩⟩

/-- Decoders that are told different things about `VCD_TARGET` before anything else. -/
theorem SameButTarget.new (d : Decoder) (hd : d.top.started = false) : SameButTarget (d.setAllowTarget false) (d.setAllowTarget true) := by
  have e : ∀ b, d.setAllowTarget b = { d with top := { d.top with allowTarget := b } } := by
    intro b
    unfold Decoder.setAllowTarget
    rw [if_neg (by rw [hd]; simp)]
  rw [e, e]
  exact ⟨rfl, rfl, [], d.top.outPos, by simp [Level.keep], fun hx => by rw [show d.top.started = true from hx] at hd; simp at hd⟩

/-- What the decoder that drops the target accepts. -/
theorem SameButTarget.feed {d d' e : Decoder} {cs : List Bytes} {out : Bytes} (hd : SameButTarget d d') (h : d.feed cs = some (out, e)) :
    ∃ e', d'.feed cs = some (out, e') ∧ SameButTarget e e' := by
  induction cs generalizing d d' out with
  | nil =>
    simp only [Decoder.feed, Option.some.injEq, Prod.mk.injEq] at h
    obtain ⟨rfl, rfl⟩ := h
    exact ⟨d', rfl, hd⟩
  | cons c cs ih =>
    obtain ⟨L, ns, o1, o2, h1, h2, rfl⟩ := feed_cons_some h
    obtain ⟨ha, hn, p, o, ht, hp⟩ := hd
    obtain ⟨top, nested⟩ := d
    obtain ⟨top', nested'⟩ := d'
    simp only at ha hn ht hp h1
    subst hn ht
    have hl : top.started = true → Linked p o top [] := by
      intro hs
      obtain ⟨h1, h2⟩ := hp hs
      refine ⟨by omega, by omega, ?_⟩
      rw [h1, h2, List.drop_length, ← List.length_append, List.drop_length]
      rfl
    have hk := chunkRun_keep ha hl nested' c
    rw [h1] at hk
    generalize hR : chunkRun (top.keep p o) nested' c = R' at hk
    cases hk with
    | ok q k1 k2 =>
      obtain ⟨e', j1, j2⟩ := ih (d := { top := L, nested := ns }) (d' := { top := L.keep q (q.length + L.decoded.length), nested := ns })
        ⟨k1, rfl, q, _, rfl, fun _ => ⟨k2, rfl⟩⟩ h2
      exact ⟨e', feed_cons_of hR j1, j2⟩

theorem SameButTarget.finish {d d' : Decoder} (h : SameButTarget d d') : d'.finish.1 = d.finish.1 := by
  obtain ⟨_, hn, p, o, ht, _⟩ := h
  unfold Decoder.finish
  rw [hn, ht]
  rfl

/-! ### The grammar -/

theorem Spec.WindowCode.target_or {c : Coding} {ext : Bool} {tol : Tolerance} {s : Settings} {dict prev w T : Bytes}
    (h : WindowCode c ext tol { s with allowTarget := true } dict prev w T) :
    WindowCode c ext tol { s with allowTarget := false } dict prev w T ∨ ∃ x t, w = x :: t ∧ x &&& 3 = 2 := by
  cases h with
  | @mk ind di seg src dl tlen dlen ilen alen cks data inst addr T items ops surplus source program tight exec windowLimit fileLimit sections noSurplus targetLength deltaIndicator dataLength
      instLength addrLength checksum deltaLength copies caches =>
    cases source with
    | none h =>
      exact Or.inl (.mk (.none h) program tight exec windowLimit fileLimit sections noSurplus targetLength deltaIndicator dataLength
        instLength addrLength checksum deltaLength copies caches)
    | dict h1 h2 h3 h4 =>
      exact Or.inl (.mk (.dict h1 h2 h3 h4) program tight exec windowLimit fileLimit sections noSurplus targetLength deltaIndicator dataLength
        instLength addrLength checksum deltaLength copies caches)
    | target h1 h2 => exact Or.inr ⟨ind, _, by simp only [List.append_assoc, List.cons_append, List.nil_append]; rfl, h1⟩

theorem Spec.Windows.target_or {c : Coding} {ext : Bool} {tol : Tolerance} {s : Settings} {dict prev ws T : Bytes}
    (h : Windows c ext tol { s with allowTarget := true } dict prev ws T) :
    Windows c ext tol { s with allowTarget := false } dict prev ws T ∨
      ∃ ws1 w rest T1 T2, ws = ws1 ++ w ++ rest ∧ Windows c ext tol { s with allowTarget := false } dict prev ws1 T1 ∧
        WindowCode c ext tol { s with allowTarget := true } dict (prev ++ T1) w T2 ∧ ∃ x t, w = x :: t ∧ x &&& 3 = 2 := by
  induction h with
  | nil => exact Or.inl .nil
  | @cons prev w T ws Ts h _ ih =>
    rcases h.target_or with k | ⟨x, t, k1, k2⟩
    · rcases ih with j | ⟨ws1, w', rest, T1, T2, j1, j2, j3, j4⟩
      · exact Or.inl (.cons k j)
      · refine Or.inr ⟨w ++ ws1, w', rest, T ++ T1, T2, by rw [j1]; simp only [List.append_assoc], .cons k j2, ?_, j4⟩
        rw [← List.append_assoc]
        exact j3
    · exact Or.inr ⟨[], w, ws, [], T, rfl, .nil, by rw [List.append_nil]; exact h, x, t, k1, k2⟩

end Vcd
