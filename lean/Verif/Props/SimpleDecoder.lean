import Verif.Model.SimpleDecoder
import Verif.Props.Reuse
import Verif.Props.Encoder

/-!
# C63: `VCDiffDecoder`
-/

namespace Vcd
open Spec

/-- The session that a call of `Decode` amounts to. -/
def decodeSession (x : Bytes × Bytes) : Session where
  pre := []
  dict := x.1
  body := [.chunk x.2]
  pre_inner := by simp
  body_inner := by simp [DecoderCall.inner]

theorem finish_of_stopped {d : Decoder} (hs : d.top.started = false) : d.finish.1 = false := by
  simp [Decoder.finish, hs]

/-- A failed chunk stops the decoder, and has no output if `VCD_TARGET` is allowed. -/
theorem failed_chunk {d d1 : Decoder} {data : Bytes} {r : DecoderReply} (hi : DecInv d) (hc : d.call (.chunk data) = .ok (r, d1))
    (hr : r.ret = false) : d1.top.started = false ∧ (d.top.allowTarget = true → r.out = []) := by
  by_cases hs : d.top.started = true
  · have i2 := (chunk_inv (hi hs).1 data).2.1
    simp only [Decoder.call, decodeChunk_eq] at hc
    cases hx : chunkRun d.top d.nested data with
    | fault f => simp [hx] at hc
    | ok L ns o =>
      simp only [hx, Except.ok.injEq, Prod.mk.injEq] at hc
      rw [← hc.1] at hr
      simp at hr
    | error L o =>
      simp only [hx, Except.ok.injEq, Prod.mk.injEq] at hc
      rw [← hc.2, ← hc.1]
      exact ⟨(i2 _ _ hx).stopped, (i2 _ _ hx).none⟩
  · have hs' : d.top.started = false := by simpa using hs
    rw [chunk_stopped hs'] at hc
    simp only [Except.ok.injEq, Prod.mk.injEq] at hc
    rw [← hc.2, ← hc.1]
    exact ⟨rfl, fun _ => rfl⟩

/-- `Decode` as a session of the streaming decoder. -/
theorem decodeTo_session {d d' : Decoder} {dict delta : Bytes} {r : Bool × Bytes} (hi : DecInv d)
    (h : d.decodeTo dict delta = .ok (r, d')) :
    ∃ rs d'', d.calls (decodeSession (dict, delta)).calls = .ok (rs, d'') ∧ d'.settings = d''.settings ∧
      d'.top.table = d''.top.table ∧ d'.top.started = false ∧ ∃ b, rs = [⟨true, []⟩, ⟨b, r.2⟩, ⟨r.1, []⟩] := by
  simp only [Decoder.decodeTo] at h
  have h0 : d.call (.start dict) = .ok (⟨true, []⟩, d.start dict) := rfl
  cases hc : (d.start dict).call (.chunk delta) with
  | error f => simp [hc] at h
  | ok p =>
    obtain ⟨q, d1⟩ := p
    simp only [hc] at h
    have e : d.calls (decodeSession (dict, delta)).calls =
        .ok ([⟨true, []⟩, q, ⟨d1.finish.1, []⟩], d1.finish.2) := by
      simp only [Session.calls, decodeSession, List.nil_append, List.cons_append, Decoder.calls, h0, hc]
      rfl
    by_cases hq : q.ret = false
    · rw [if_pos hq] at h
      simp only [Except.ok.injEq, Prod.mk.injEq] at h
      obtain ⟨rfl, rfl⟩ := h
      have hst := (failed_chunk (hi.start dict).1 hc hq).1
      refine ⟨_, _, e, rfl, rfl, hst, false, ?_⟩
      rw [finish_of_stopped hst, ← hq]
    · rw [if_neg hq] at h
      simp only [Except.ok.injEq, Prod.mk.injEq] at h
      obtain ⟨rfl, rfl⟩ := h
      exact ⟨_, _, e, rfl, rfl, rfl, q.ret, rfl⟩

theorem decodeTo_fault {d : Decoder} {dict delta : Bytes} {f : Fault} :
    d.decodeTo dict delta = .error f ↔ d.calls (decodeSession (dict, delta)).calls = .error f := by
  have h0 : d.call (.start dict) = .ok (⟨true, []⟩, d.start dict) := rfl
  simp only [Decoder.decodeTo, Session.calls, decodeSession, List.nil_append, List.cons_append, Decoder.calls, h0]
  cases hc : (d.start dict).call (.chunk delta) with
  | error g => simp
  | ok p =>
    obtain ⟨q, d1⟩ := p
    have hf : d1.call .finish = .ok (⟨d1.finish.1, []⟩, d1.finish.2) := rfl
    simp only [hf]
    by_cases hq : q.ret = false <;> simp [hq]

/-- The results of `Decode` in terms of the replies of a session. -/
theorem decodeTo_congr {d d2 : Decoder} (hi : DecInv d) (hi2 : DecInv d2) (dict delta : Bytes)
    (h : (d.calls (decodeSession (dict, delta)).calls).map Prod.fst = (d2.calls (decodeSession (dict, delta)).calls).map Prod.fst) :
    (d.decodeTo dict delta).map Prod.fst = (d2.decodeTo dict delta).map Prod.fst := by
  cases h1 : d.decodeTo dict delta with
  | error f =>
    rw [decodeTo_fault.mp h1] at h
    cases h2 : d2.decodeTo dict delta with
    | error g =>
      rw [decodeTo_fault.mp h2] at h
      simp only [Except.map, Except.error.injEq] at h ⊢
      exact h
    | ok p =>
      obtain ⟨rs, d'', k, _⟩ := decodeTo_session hi2 h2
      rw [k] at h
      cases h
  | ok p =>
    obtain ⟨rs, d'', k, _, _, _, b, hb⟩ := decodeTo_session hi h1
    rw [k] at h
    cases h2 : d2.decodeTo dict delta with
    | error g =>
      rw [decodeTo_fault.mp h2] at h
      cases h
    | ok p' =>
      obtain ⟨rs', d2'', k', _, _, _, b', hb'⟩ := decodeTo_session hi2 h2
      rw [k'] at h
      simp only [Except.map, Except.ok.injEq] at h ⊢
      rw [hb, hb'] at h
      simp only [List.cons.injEq, DecoderReply.mk.injEq, and_true, true_and] at h
      exact Prod.ext h.2 h.1.2

/-- The state of a `VCDiffDecoder` between calls. -/
structure SimpleIdle (d : Decoder) (t : CodeTable) : Prop where
  inv : DecInv d
  idle : Idle d t
  settings : d.settings = {}

theorem SimpleIdle.step {d d' : Decoder} {t : CodeTable} (h : SimpleIdle d t) {x : Bytes × Bytes} {r : Bool × Bytes}
    (hr : d.decodeTo x.1 x.2 = .ok (r, d')) : ∃ t', SimpleIdle d' t' ∧ (t' = t ∨ BringsTable x.2 t') := by
  obtain ⟨rs, d'', k1, k2, k3, k4, _⟩ := decodeTo_session h.inv hr
  obtain ⟨t', i1, i2⟩ := h.idle.session h.inv (decodeSession x) k1
  have hset := (settings_session h.inv h.idle.stopped (s := decodeSession x) (by simp [decodeSession]) k1).1
  refine ⟨t', ⟨fun hs => ?_, ⟨k4, k3.trans i1.table⟩, ?_⟩, by simpa [decodeSession, Session.stream, streamOf] using i2⟩
  · rw [k4] at hs; cases hs
  · rw [k2, hset, h.settings]; rfl

theorem SimpleIdle.new : SimpleIdle {} defaultTable := ⟨DecInv.new, ⟨rfl, rfl⟩, rfl⟩

theorem SimpleIdle.all {d d' : Decoder} {t : CodeTable} (h : SimpleIdle d t) {xs : List (Bytes × Bytes)} {rs : List (Bool × Bytes)}
    (hr : d.decodeAll xs = .ok (rs, d')) : ∃ t', SimpleIdle d' t' ∧ (t' = t ∨ ∃ x ∈ xs, BringsTable x.2 t') := by
  induction xs generalizing d t rs with
  | nil =>
    simp only [Decoder.decodeAll, Except.ok.injEq, Prod.mk.injEq] at hr
    rw [← hr.2]
    exact ⟨t, h, .inl rfl⟩
  | cons x xs ih =>
    simp only [Decoder.decodeAll] at hr
    cases h1 : d.decodeTo x.1 x.2 with
    | error f => simp [h1] at hr
    | ok p =>
      obtain ⟨r, d1⟩ := p
      simp only [h1] at hr
      cases h2 : d1.decodeAll xs with
      | error f => simp [h2] at hr
      | ok q =>
        simp only [h2, Except.ok.injEq, Prod.mk.injEq] at hr
        obtain ⟨t1, i1, i2⟩ := h.step h1
        obtain ⟨t2, j1, j2⟩ := ih i1 (rs := q.1) (by rw [h2, ← hr.2])
        refine ⟨t2, j1, ?_⟩
        rcases j2 with rfl | ⟨y, hy, j2⟩
        · rcases i2 with rfl | i2
          · exact .inl rfl
          · exact .inr ⟨x, by simp, i2⟩
        · exact .inr ⟨y, by simp [hy], j2⟩

theorem DecInv.leftWith (s : Settings) (t : CodeTable) : DecInv (leftWith s t) := by
  intro h; cases h

namespace Props

/-- C63. After any calls of `Decode` on a `VCDiffDecoder`, successful or not, a further call gives the result, and leaves in the
target string, what it would with a decoder that is new but for its code table, which is the default one or one that an
earlier delta brought. -/
theorem vcdiff_decoder_history (earlier : List (Bytes × Bytes)) (rs : List (Bool × Bytes)) (d : Decoder)
    (h : ({} : Decoder).decodeAll earlier = .ok (rs, d)) :
    ∃ left : CodeTable, (left = defaultTable ∨ ∃ x ∈ earlier, BringsTable x.2 left) ∧
      ∀ dict delta : Bytes, (d.decodeTo dict delta).map Prod.fst = ((leftWith {} left).decodeTo dict delta).map Prod.fst := by
  obtain ⟨left, i, hb⟩ := SimpleIdle.new.all h
  refine ⟨left, hb, fun dict delta => decodeTo_congr i.inv (DecInv.leftWith _ _) dict delta ?_⟩
  have := replies_leftWith i.idle.stopped dict [.chunk delta, .finish]
  rw [i.settings, i.idle.table] at this
  exact this

/-- C63. In particular, if no earlier delta brought a code table other than the default one, `Decode` does what it does with a new
decoder. -/
theorem vcdiff_decoder_reuse_partial (earlier : List (Bytes × Bytes)) (rs : List (Bool × Bytes)) (d : Decoder)
    (h : ({} : Decoder).decodeAll earlier = .ok (rs, d)) (hb : ∀ x ∈ earlier, ∀ t, BringsTable x.2 t → t = defaultTable)
    (dict delta : Bytes) : (d.decodeTo dict delta).map Prod.fst = (({} : Decoder).decodeTo dict delta).map Prod.fst := by
  obtain ⟨left, h1, h2⟩ := vcdiff_decoder_history earlier rs d h
  have : left = defaultTable := by
    rcases h1 with h1 | ⟨x, hx, h1⟩
    · exact h1
    · exact hb x hx left h1
  subst this
  exact h2 dict delta

/-- C63. What the results of `Decode` mean. `true` with the target `T` is exactly the success of the streaming decoder on the
delta in one chunk; then the delta is a file for `T`. After `false` the target is empty, unless the delta was accepted
as far as it goes but is not complete; then the target has the output for the part that there is. Faults are those of C04 and C05. -/
theorem vcdiff_decode_result (left : CodeTable) (dict delta : Bytes) :
    (∀ T, ((leftWith {} left).decodeTo dict delta).map Prod.fst = .ok (true, T) ↔ (leftWith {} left).decode dict [delta] = some T) ∧
    (∀ T, ((leftWith {} left).decodeTo dict delta).map Prod.fst = .ok (true, T) → FileCode library {} dict delta T left) ∧
    (∀ T, ((leftWith {} left).decodeTo dict delta).map Prod.fst = .ok (false, T) →
      (leftWith {} left).decode dict [delta] = none ∧
      (T = [] ∨ ∃ d', ((leftWith {} left).start dict).feed [delta] = some (T, d') ∧ d'.finish.1 = false)) ∧
    (∀ f, ((leftWith {} left).decodeTo dict delta).map Prod.fst = .error f → f = .nearOverflow ∨ f = .cacheOob) := by
  have hi := DecInv.leftWith {} left
  have hi1 := (hi.start dict).1
  have hal : ((leftWith {} left).start dict).top.allowTarget = true := rfl
  have key : ∀ r, ((leftWith {} left).decodeTo dict delta).map Prod.fst = .ok r →
      (r.1 = true ∧ (leftWith {} left).decode dict [delta] = some r.2) ∨
      (r.1 = false ∧ (leftWith {} left).decode dict [delta] = none ∧
        (r.2 = [] ∨ ∃ d', ((leftWith {} left).start dict).feed [delta] = some (r.2, d') ∧ d'.finish.1 = false)) := by
    intro r hr
    simp only [Decoder.decodeTo] at hr
    cases hc : ((leftWith {} left).start dict).call (.chunk delta) with
    | error f => simp [hc, Except.map] at hr
    | ok p =>
      obtain ⟨q, d1⟩ := p
      simp only [hc] at hr
      have hc' := hc
      simp only [Decoder.call] at hc
      by_cases hq : q.ret = false
      · rw [if_pos hq] at hr
        simp only [Except.map, Except.ok.injEq] at hr
        subst hr
        refine .inr ⟨rfl, ?_, .inl ((failed_chunk hi1 hc' hq).2 hal)⟩
        cases hx : ((leftWith {} left).start dict).decodeChunk delta with
        | fault f => simp [hx] at hc
        | ok L ns o =>
          simp only [hx, Except.ok.injEq, Prod.mk.injEq] at hc
          rw [← hc.1] at hq; cases hq
        | error L o => simp only [Decoder.decode, Decoder.feed, hx]
      · rw [if_neg hq] at hr
        simp only [Except.map, Except.ok.injEq] at hr
        subst hr
        cases hx : ((leftWith {} left).start dict).decodeChunk delta with
        | fault f => simp [hx] at hc
        | error L o =>
          simp only [hx, Except.ok.injEq, Prod.mk.injEq] at hc
          rw [← hc.1] at hq; exact absurd rfl hq
        | ok L ns o =>
          simp only [hx, Except.ok.injEq, Prod.mk.injEq] at hc
          obtain ⟨rfl, rfl⟩ := hc
          have hf : ((leftWith {} left).start dict).feed [delta] = some (o, { top := L, nested := ns }) := by
            simp only [Decoder.feed, hx, List.append_nil]
          cases hfin : (⟨L, ns⟩ : Decoder).finish.1 with
          | true => exact .inl ⟨rfl, by simp only [Decoder.decode, hf, hfin, if_true]⟩
          | false => exact .inr ⟨rfl, by simp [Decoder.decode, hf, hfin], .inr ⟨_, hf, hfin⟩⟩
  have iff : ∀ T, ((leftWith {} left).decodeTo dict delta).map Prod.fst = .ok (true, T) ↔
      (leftWith {} left).decode dict [delta] = some T := by
    intro T
    constructor
    · intro h
      rcases key _ h with ⟨_, k⟩ | ⟨k, _⟩
      · exact k
      · cases k
    · intro h
      cases hx : ((leftWith {} left).decodeTo dict delta).map Prod.fst with
      | error f =>
        exfalso
        cases hy : (leftWith {} left).decodeTo dict delta with
        | ok p => simp [hy, Except.map] at hx
        | error g =>
          simp only [Decoder.decodeTo] at hy
          cases hc : ((leftWith {} left).start dict).decodeChunk delta with
          | ok L ns o => simp only [Decoder.call, hc] at hy; simp at hy
          | error L o => simp only [Decoder.decode, Decoder.feed, hc] at h; cases h
          | fault e => simp only [Decoder.decode, Decoder.feed, hc] at h; cases h
      | ok r =>
        rcases key _ hx with ⟨k1, k2⟩ | ⟨_, k2, _⟩
        · rw [k2] at h
          rw [← k1, ← Option.some.inj h]
        · rw [k2] at h; cases h
  refine ⟨iff, fun T h => ?_, fun T h => ?_, fun f h => ?_⟩
  · simpa using used_decoder_sound {} left dict T [delta] ((iff T).mp h)
  · rcases key _ h with ⟨k, _⟩ | ⟨_, k⟩
    · cases k
    · exact k
  · cases hy : (leftWith {} left).decodeTo dict delta with
    | ok p => simp [hy, Except.map] at h
    | error g =>
      rw [hy] at h
      simp only [Except.map, Except.error.injEq] at h
      subst h
      exact calls_fault hi (decodeTo_fault.mp hy)

/-- C63, C01, C43. `VCDiffEncoder` and `VCDiffDecoder` after whatever uses (with binary formats, and without earlier deltas that brought a code table
other than the default one): `Decode` of what `Encode` has output returns `true` and leaves the target of `Encode` in
its own target string. The sizes are within the decoder's default limits. -/
theorem simple_objects_round_trip (dict target : Bytes) (hdict : dict.length < 2 ^ 31) (history : List SimpleCall)
    (hf : ∀ flags, .setFormatFlags flags ∈ history → flags &&& 4 = 0)
    (hs : ∀ t, .encode t ∈ history ++ [.encode target] → dict.length + t.length < 2 ^ 31 ∧ t.length + 64 < 2 ^ 31)
    (hlimit : target.length ≤ 67108864) (earlier : List (Bytes × Bytes)) (ds : List (Bool × Bytes)) (d : Decoder)
    (h : ({} : Decoder).decodeAll earlier = .ok (ds, d)) (hb : ∀ x ∈ earlier, ∀ t, BringsTable x.2 t → t = defaultTable) :
    ∃ rs delta e d', ({ dictionary := dict } : SimpleEncoder).calls (history ++ [.encode target]) =
        .ok (rs ++ [some (true, delta)], e) ∧ d.decodeTo dict delta = .ok ((true, target), d') := by
  obtain ⟨rs, delta, e, h1, h2⟩ := simple_round_trip dict hdict history target hf hs {} hlimit hlimit
  have hr := vcdiff_decoder_reuse_partial earlier ds d h hb dict delta
  have h3 := ((vcdiff_decode_result defaultTable dict delta).1 target).mpr (h2 [delta] (by simp))
  have h4 : (d.decodeTo dict delta).map Prod.fst = .ok (true, target) := hr.trans h3
  cases hx : d.decodeTo dict delta with
  | error f => simp [hx, Except.map] at h4
  | ok p =>
    rw [hx] at h4
    simp only [Except.map, Except.ok.injEq] at h4
    exact ⟨rs, delta, e, p.2, h1, by rw [hx, ← h4]⟩

/-- C63. Of the strings of the caller `Decode` changes only the target, which gets the output and loses what was in it. -/
theorem decode_changes_only_target (d d' : Decoder) (vars vars' : Nat → Bytes) (dict : Bytes) (encoding target : Nat) (ret : Bool)
    (hne : encoding ≠ target) (h : d.decodeVars vars dict encoding target = .ok (ret, vars', d')) :
    (∀ v, v ≠ target → vars' v = vars v) ∧ d.decodeTo dict (vars encoding) = .ok ((ret, vars' target), d') := by
  simp only [Decoder.decodeVars, if_neg hne] at h
  cases hx : d.decodeTo dict (vars encoding) with
  | error f => simp [hx] at h
  | ok p =>
    simp only [hx, Except.ok.injEq, Prod.mk.injEq] at h
    obtain ⟨rfl, rfl, rfl⟩ := h
    exact ⟨fun v hv => by simp [hv], by simp⟩

/-- C63, finding 26: with one string as the encoding and the target, `Decode` returns `true` and the string is empty, whatever it
contained, a delta or not, and whatever the decoder was used for before. -/
theorem decode_in_place_empties (earlier : List (Bytes × Bytes)) (rs : List (Bool × Bytes)) (d : Decoder)
    (h : ({} : Decoder).decodeAll earlier = .ok (rs, d)) (vars : Nat → Bytes) (dict : Bytes) (v : Nat) :
    ∃ vars' d', d.decodeVars vars dict v v = .ok (true, vars', d') ∧ vars' v = [] := by
  obtain ⟨left, i, _⟩ := SimpleIdle.new.all h
  have e := start_fresh i.idle.stopped dict
  have hc : ∃ d1, (d.start dict).call (.chunk []) = .ok (⟨true, []⟩, d1) ∧ d1.finish.1 = true := by
    rw [e]
    exact ⟨_, rfl, rfl⟩
  obtain ⟨d1, c1, c2⟩ := hc
  refine ⟨_, _, by simp only [Decoder.decodeVars, Decoder.decodeTo, if_true, c1, c2]; rfl, by simp⟩

/-- The hypotheses are met by a decoder that has refused one delta, accepted another and got an incomplete one. -/
example : (({} : Decoder).decodeAll [([], [1, 2, 3]), ([], stdDelta), ([], stdDelta ++ [0])]).toOption.map Prod.fst =
    some [(false, []), (true, [0x61, 0x62, 0x63]), (false, [0x61, 0x62, 0x63])] ∧
    ∀ x ∈ [(([] : Bytes), ([1, 2, 3] : Bytes)), ([], stdDelta), ([], stdDelta ++ [0])], ∀ t, BringsTable x.2 t → t = defaultTable := by
  refine ⟨by decide +kernel, ?_⟩
  rintro x hx t ⟨v, hi, nb, sb, td, tb, u, near, same, _, e, h2, _⟩
  exfalso
  simp only [List.mem_cons, List.not_mem_nil, or_false] at hx
  rcases hx with rfl | rfl | rfl
  · simp at e
  · simp only [stdDelta, List.cons_append, List.cons.injEq] at e
    rw [← e.2.2.2.2.1] at h2; exact absurd h2 (by decide)
  · simp only [stdDelta, List.cons_append, List.cons.injEq] at e
    rw [← e.2.2.2.2.1] at h2; exact absurd h2 (by decide)

end Props
end Vcd
