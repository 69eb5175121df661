import Verif.Spec.ExceptionsResume
import Verif.Proof.ExceptionsResume
import Verif.Props.Exceptions

/-!
# C83: decoding goes on after an exception

An exception from the output string passes through `DecodeChunk`. `decodeThrowing d dict chunks` (`Verif.Spec.ExceptionsResume`) is a decode by a caller who
catches such exceptions and goes on with the next chunk.
-/

namespace Vcd
open Spec

theorem Behind.feed {x : Bytes} {d' d d2 : Decoder} (h : Behind x d' d) {steps : List (Bytes × Option Nat)} {out : Bytes}
    (hf : d.feed (steps.map Prod.fst) = some (out, d2)) :
    ∃ y d3 z, feedThrowing d' steps = some (y, d3) ∧ Behind z d3 d2 ∧ y ++ z = x ++ out := by
  induction steps generalizing x d' d out with
  | nil =>
    simp only [List.map_nil, Decoder.feed, Option.some.injEq, Prod.mk.injEq] at hf
    obtain ⟨rfl, rfl⟩ := hf
    exact ⟨[], d', x, rfl, h, by simp⟩
  | cons step steps ih =>
    obtain ⟨data, k⟩ := step
    simp only [List.map_cons, Decoder.feed] at hf
    cases hc : d.decodeChunk data with
    | fault f => simp [hc] at hf
    | error L o => simp [hc] at hf
    | ok L ns o =>
      simp only [hc] at hf
      have hr : d.call (.chunk data) = .ok (⟨true, o⟩, ⟨L, ns⟩) := by simp only [Decoder.call, hc]
      cases hy : Decoder.feed ⟨L, ns⟩ (steps.map Prod.fst) with
      | none => simp [hy] at hf
      | some p =>
        obtain ⟨o2, e⟩ := p
        simp only [hy, Option.some.injEq, Prod.mk.injEq] at hf
        obtain ⟨rfl, rfl⟩ := hf
        rw [feedThrowing]
        cases hk : k.bind (d'.chunkThrow data) with
        | some d'' =>
          obtain ⟨k, rfl, ht⟩ := Option.bind_eq_some_iff.1 hk
          obtain ⟨_, b, hnone⟩ := h.throw hr ht
          obtain ⟨y, d3, z, f1, f2, f3⟩ := ih b hy
          simp only [f1, Option.map_some, Option.getD_some, hnone, List.nil_append]
          exact ⟨y, d3, z, rfl, f2, by rw [f3, List.append_assoc]⟩
        | none =>
          obtain ⟨out, c1, _, c2⟩ := h.call hr
          have hd := h.inv.1.call hr
          have ha : L.allowTarget = true := by
            have := congrArg Settings.allowTarget (settings_call h.inv.1 (fun b hb => by cases hb) hr)
            exact this.trans h.inv.2.1
          obtain ⟨y, d3, z, f1, f2, f3⟩ := ih (.same hd ha) hy
          have hc' : d'.decodeChunk data = .ok L ns out := by
            simp only [Decoder.call] at c1
            cases hx : d'.decodeChunk data with
            | fault f => simp [hx] at c1
            | error L o => simp [hx] at c1
            | ok L2 ns2 o3 =>
              simp only [hx, Except.ok.injEq, Prod.mk.injEq, DecoderReply.mk.injEq, Decoder.mk.injEq, true_and] at c1
              obtain ⟨rfl, rfl, rfl⟩ := c1
              rfl
          simp only [hc', f1, Option.map_some]
          refine ⟨out ++ y, d3, z, rfl, f2, ?_⟩
          rw [List.append_assoc, f3, c2 rfl]
          simp

theorem feedThrowing_append (d : Decoder) (a b : List (Bytes × Option Nat)) {y : Bytes} {d3 : Decoder} (h : feedThrowing d a = some (y, d3)) :
    feedThrowing d (a ++ b) = (feedThrowing d3 b).map fun p => (y ++ p.1, p.2) := by
  induction a generalizing d y with
  | nil =>
    simp only [feedThrowing, Option.some.injEq, Prod.mk.injEq] at h
    obtain ⟨rfl, rfl⟩ := h
    simp
  | cons step a ih =>
    obtain ⟨data, k⟩ := step
    rw [List.cons_append, feedThrowing]
    rw [feedThrowing] at h
    cases hk : k.bind (d.chunkThrow data) with
    | some d' =>
      simp only [hk, Option.map_eq_some_iff, Prod.mk.injEq] at h ⊢
      obtain ⟨⟨y1, e⟩, h1, rfl, rfl⟩ := h
      rw [ih _ h1]
      simp [Option.map_map, Function.comp_def]
    | none =>
      simp only [hk] at h ⊢
      cases hc : d.decodeChunk data with
      | fault f => simp [hc] at h
      | error L o => simp [hc] at h
      | ok L ns o =>
        simp only [hc, Option.map_eq_some_iff, Prod.mk.injEq] at h ⊢
        obtain ⟨⟨y1, e⟩, h1, rfl, rfl⟩ := h
        rw [ih _ h1]
        simp [Option.map_map, Function.comp_def]

theorem feed_append_some (d : Decoder) (a b : List Bytes) {out : Bytes} {d2 : Decoder} (h : d.feed (a ++ b) = some (out, d2)) :
    ∃ o1 d1 o2, d.feed a = some (o1, d1) ∧ d1.feed b = some (o2, d2) ∧ out = o1 ++ o2 := by
  induction a generalizing d out with
  | nil => exact ⟨[], d, out, rfl, h, rfl⟩
  | cons c a ih =>
    obtain ⟨L, ns, o1, o2, h1, h2, rfl⟩ := feed_cons_some h
    obtain ⟨p1, d1, p2, i1, i2, rfl⟩ := ih ⟨L, ns⟩ h2
    refine ⟨o1 ++ p1, d1, p2, ?_, i2, by simp⟩
    rw [Decoder.feed, decodeChunk_eq]
    simp only [h1, i1]

namespace Props
open Vcd Vcd.Spec

/-- C83: if a delta, in the chunks `cs` and then `last`, is decoded to `T`, and the caller's output string throws in any number of calls of
`DecodeChunk`, at any operations, but not in the last call, then the caller who goes on after each exception with the next chunk gets
`T`, and all calls that return return true. Partial: `VCD_TARGET` must be allowed, as it is by default;
`not_resumed_without_target` shows that this is needed. `cs` and `last` may contain empty chunks. -/
theorem decode_resumed_partial (s : Settings) (ha : s.allowTarget = true) (dict T : Bytes) (steps : List (Bytes × Option Nat)) (last : Bytes)
    (h : (configured s).decode dict (steps.map Prod.fst ++ [last]) = some T) :
    decodeThrowing (configured s) dict (steps ++ [(last, none)]) = some T := by
  unfold Decoder.decode at h
  have h0 : DecInv (configured s) := by intro hx; simp [configured] at hx
  have hcall : (configured s).call (.start dict) = .ok (⟨true, []⟩, (configured s).start dict) := rfl
  have hd : DecInv ((configured s).start dict) := h0.call hcall
  have had : ((configured s).start dict).top.allowTarget = true := ha
  cases hf : ((configured s).start dict).feed (steps.map Prod.fst ++ [last]) with
  | none => simp [hf] at h
  | some p =>
    obtain ⟨out, d2⟩ := p
    simp only [hf] at h
    split at h
    · rename_i hfin
      simp only [Option.some.injEq] at h
      subst h
      obtain ⟨o1, d1, o2, f1, f2, rfl⟩ := feed_append_some _ _ _ hf
      obtain ⟨y, d3, z, g1, g2, g3⟩ := (Behind.same hd had).feed f1
      have g4 := feedThrowing_append _ steps [(last, none)] g1
      -- the last call
      have f2' : d1.feed ([(last, (none : Option Nat))].map Prod.fst) = some (o2, d2) := f2
      obtain ⟨L, ns, q1, q2, c1, c2, rfl⟩ := feed_cons_some f2
      simp only [Decoder.feed, Option.some.injEq, Prod.mk.injEq] at c2
      obtain ⟨rfl, rfl⟩ := c2
      have hr : d1.call (.chunk last) = .ok (⟨true, q1⟩, ⟨L, ns⟩) := by simp only [Decoder.call, decodeChunk_eq, c1]
      obtain ⟨out, c3, _, c4⟩ := g2.call hr
      have hc' : d3.decodeChunk last = .ok L ns out := by
        simp only [Decoder.call] at c3
        cases hx : d3.decodeChunk last with
        | fault f => simp [hx] at c3
        | error L o => simp [hx] at c3
        | ok L2 ns2 o3 =>
          simp only [hx, Except.ok.injEq, Prod.mk.injEq, DecoderReply.mk.injEq, Decoder.mk.injEq, true_and] at c3
          obtain ⟨rfl, rfl, rfl⟩ := c3
          rfl
      unfold decodeThrowing
      rw [g4]
      simp only [feedThrowing, Option.bind_none, hc', Option.map_some, List.append_nil, hfin, if_true, Option.some.injEq]
      rw [c4 rfl, ← List.append_assoc, g3]
      simp
    · cases h

/-- C83, one exception, for every history of calls: if an exception interrupts `DecodeChunk(data)`, then the next call, `DecodeChunk(next)`, outputs what the two
calls would have output, returns what the second would have returned, and leaves the decoder as it would have been: whatever is called from then on
is answered as if there had been no exception. When the exception comes nothing has been output. -/
theorem next_call_makes_up_partial (history : List DecoderCall) (rs : List DecoderReply) (d : Decoder)
    (h : ({} : Decoder).calls history = .ok (rs, d)) (ha : d.top.allowTarget = true) (data next : Bytes) (r r2 : DecoderReply) (d1 d2 d' : Decoder)
    (k : Nat) (hc : d.call (.chunk data) = .ok (r, d1)) (ht : d.chunkThrow data k = some d') (hn : d1.call (.chunk next) = .ok (r2, d2)) :
    r.ret = true ∧ appendedBefore (d.chunkOps data) k 0 = [] ∧
    ∃ out, d'.call (.chunk next) = .ok (⟨r2.ret, out⟩, d2) ∧ out <+: r.out ++ r2.out ∧ (r2.ret = true → out = r.out ++ r2.out) := by
  obtain ⟨t1, t2, t3⟩ := (Behind.same (DecInv.new.calls h) ha).throw hc ht
  rw [List.nil_append] at t2
  exact ⟨t1, t3, t2.call hn⟩

/-! ## Where it does not hold -/

/-- A window for three bytes. -/
def threeBytes (a b c : UInt8) : Bytes := [0, 9, 3, 0, 3, 1, 0, a, b, c, 4]

/-- A header and windows for `abc`, `def` and `ghi`. -/
def nineBytes : List Bytes := [[0xD6, 0xC3, 0xC4, 0, 0], threeBytes 97 98 99 ++ threeBytes 100 101 102, threeBytes 103 104 105]

/-- C83 does not hold without target windows: with `SetAllowVcdTarget(false)`, an exception for the first window of a chunk loses the
second. All other calls return true, `FinishDecoding` among them, and `abcghi` has been output instead of `abcdefghi`. -/
theorem not_resumed_without_target :
    (configured { allowTarget := false }).decode [] nineBytes = some [97, 98, 99, 100, 101, 102, 103, 104, 105] ∧
    decodeThrowing (configured { allowTarget := false }) [] (nineBytes.zip [none, some 0, none]) = some [97, 98, 99, 103, 104, 105] := by
  decide +kernel

/-- And if a part of the window had come with the chunk before, the exception makes the decoder read it again: `abcabcdefghi` is output. -/
theorem repeated_without_target :
    let cs : List Bytes := [[0xD6, 0xC3, 0xC4, 0, 0, 0], (threeBytes 97 98 99 ++ threeBytes 100 101 102).drop 1, threeBytes 103 104 105]
    (configured { allowTarget := false }).decode [] cs = some [97, 98, 99, 100, 101, 102, 103, 104, 105] ∧
    decodeThrowing (configured { allowTarget := false }) [] (cs.zip [none, some 0, none]) =
      some [97, 98, 99, 97, 98, 99, 100, 101, 102, 103, 104, 105] := by
  decide +kernel

/-- The chunk that was interrupted must not be passed again: the default decoder then outputs its text twice, and no call returns false. (The decoder
has read the chunk when the exception comes.) -/
theorem repeated_chunk_is_duplicated :
    ({} : Decoder).decode [] [[0xD6, 0xC3, 0xC4, 0, 0], threeBytes 97 98 99] = some [97, 98, 99] ∧
    decodeThrowing {} [] [([0xD6, 0xC3, 0xC4, 0, 0], none), (threeBytes 97 98 99, some 0), (threeBytes 97 98 99, none)] =
      some [97, 98, 99, 97, 98, 99] := by
  decide +kernel

/-! ## The hypotheses can be met -/

/-- The default decoder, exceptions from the reservation for the second chunk and from the append for the third, then an empty chunk. -/
example : ((configured {}).decode [] (((nineBytes.zip [none, some 0, some 1]).map Prod.fst) ++ [[]]) =
      some [97, 98, 99, 100, 101, 102, 103, 104, 105]) ∧
    decodeThrowing (configured {}) [] (nineBytes.zip [none, some 0, some 0] ++ [([], none)]) =
      some [97, 98, 99, 100, 101, 102, 103, 104, 105] ∧ ({} : Settings).allowTarget = true := by
  decide +kernel

/-- The exceptions do happen. -/
example : let d := ((configured {}).start []).feed (nineBytes.take 1)
    (d.map fun p => (p.2.chunkThrow nineBytes[1]! 0).isSome) = some true := by
  decide +kernel

/-- A history that leads to a decoder with an exception in the next call. -/
example : (({} : Decoder).calls [.start [], .chunk [0xD6, 0xC3, 0xC4, 0, 0]]).toOption.map
    (fun p => (p.2.top.allowTarget, (p.2.chunkThrow (threeBytes 97 98 99) 0).isSome,
      (p.2.call (.chunk (threeBytes 97 98 99))).toOption.map Prod.fst)) = some (true, true, some ⟨true, [97, 98, 99]⟩) := by
  decide +kernel

end Props
end Vcd
