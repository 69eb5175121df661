import Verif.Proof.AllowTarget
import Verif.Props.Joined

/-!
# C88: `SetAllowVcdTarget(false)` only refuses
-/

namespace Vcd.Props
open Vcd Vcd.Spec

/-- C88: let two decoders in the same state, between two decodes, be told that VCD_TARGET is not allowed, and that it is, and then get the same calls: chunks in
whatever division, limits, new decodes. Then the first one gives the same replies as the second one, with the same output at the same calls, although it has
dropped the target of earlier windows, except that it may refuse chunks: see `OnlyRefuses`. -/
theorem disallowing_target_only_refuses (d : Decoder) (hd : d.top.started = false) (cs : List DecoderCall)
    (hcs : ∀ c ∈ cs, ∀ b, c ≠ .setAllowTarget b) (rs rs' : List DecoderReply) (e e' : Decoder)
    (h : (d.setAllowTarget false).calls cs = .ok (rs, e)) (h' : (d.setAllowTarget true).calls cs = .ok (rs', e')) :
    OnlyRefuses cs rs rs' :=
  (SameButTarget.new d hd).calls hcs h h'

/-- A window that takes its three bytes from the target of the first one. -/
def fromTarget : Bytes := [2, 3, 0, 8, 3, 0, 0, 2, 1, 19, 3, 0]

/-- Non-vacuity: the first window is decoded, in two chunks; the second one in the same chunk as the third, which takes its source from the target. After that
chunk, one decoder goes on, and the other one needs a new decode. -/
example :
    let cs : List DecoderCall := [.start [], .chunk (joinHeader ++ joinAdd.take 4), .chunk (joinAdd.drop 4), .chunk (joinAdd ++ fromTarget), .finish,
      .start [], .chunk (joinHeader ++ joinAdd), .finish]
    ((({} : Decoder).setAllowTarget false).calls cs).toOption.map (fun p => p.1.map fun r => (r.ret, r.out)) =
      some [(true, []), (true, []), (true, [97, 98, 99]), (false, [97, 98, 99]), (false, []), (true, []), (true, [97, 98, 99]), (true, [])] ∧
    ((({} : Decoder).setAllowTarget true).calls cs).toOption.map (fun p => p.1.map fun r => (r.ret, r.out)) =
      some [(true, []), (true, []), (true, [97, 98, 99]), (true, [97, 98, 99, 97, 98, 99]), (true, []), (true, []), (true, [97, 98, 99]), (true, [])] := by
  constructor <;> decide +kernel

/-- C88: a delta that is accepted, in whatever chunks, when VCD_TARGET is not allowed is accepted, with the same output, when it is. -/
theorem accepted_when_target_allowed (d : Decoder) (hd : d.top.started = false) (dict : Bytes) (cs : List Bytes) (T : Bytes)
    (h : (d.setAllowTarget false).decode dict cs = some T) : (d.setAllowTarget true).decode dict cs = some T := by
  obtain ⟨e, h1, h2⟩ := decode_some.1 h
  have hs : SameButTarget ((d.setAllowTarget false).start dict) ((d.setAllowTarget true).start dict) := by
    rcases (SameButTarget.new d hd).call (c := .start dict) (by simp) rfl rfl with k | ⟨_, k, _⟩
    · exact k.2
    · simp at k
  obtain ⟨e', h3, h4⟩ := hs.feed h1
  exact decode_some.2 ⟨e', h3, by rw [h4.finish]; exact h2⟩

example : (({} : Decoder).setAllowTarget false).decode [0x78, 0x79, 0x7A] [joinHeader ++ joinAdd, joinCopy] = some [97, 98, 99, 120, 121, 122] := by decide +kernel

/-- C88: of the deltas that are accepted when VCD_TARGET is allowed, those without a window that takes its source from target data, and no others, are accepted when it
is not (fed byte by byte). -/
theorem refused_only_for_target (s : Settings) (dict delta T : Bytes)
    (h : (configured { s with allowTarget := true }).decode dict (delta.map fun b => [b]) = some T) :
    (configured { s with allowTarget := false }).decode dict (delta.map fun b => [b]) = some T ↔ ¬ ∃ front, HasTargetWindow s dict delta front := by
  constructor
  · rintro hA ⟨front, hdr, ext, c, ws, w, T2, rest, rfl, k1, k2, k3, x, t, rfl, k4⟩
    have hp : (configured { s with allowTarget := false }).decode dict (singles (hdr ++ ws)) = some front :=
      (accepts_exactly_library _ dict _ _).2 (.mk k1 k2)
    have hne : (singles (hdr ++ ws)).flatten ≠ [] := by
      rw [singles_flatten]
      cases k1 <;> simp
    have hx : x &&& 2 ≠ 0 := by
      have : ∀ y : UInt8, y &&& 3 = 2 → y &&& 2 ≠ 0 := by apply forall_byte; decide +kernel
      exact this x k4
    obtain ⟨e, h1, L, h2⟩ := target_chunk (s := { s with allowTarget := false }) (d := configured { s with allowTarget := false }) rfl rfl rfl rfl rfl rfl
      hne hp hx (b := [])
    obtain ⟨e1, h3, _⟩ := decode_some.1 hA
    have es : ((hdr ++ ws ++ x :: t ++ rest).map fun b => [b]) = singles (hdr ++ ws) ++ [x] :: singles (t ++ rest) := by
      simp [singles]
    rw [es] at h3
    obtain ⟨e2, o1, o2, h4, h5, _⟩ := feed_append.1 h3
    rw [h1] at h4
    simp only [Option.some.injEq, Prod.mk.injEq] at h4
    obtain ⟨_, rfl⟩ := h4
    obtain ⟨L', ns', o3, o4, h6, _⟩ := feed_cons_some h5
    rw [h2] at h6
    simp at h6
  · intro hn
    refine (accepts_exactly_library _ dict delta T).2 ?_
    cases (accepts_exactly_library _ dict delta T).1 h with
    | empty he => exact .empty he
    | @mk hdr ws _ ext c _ h1 h2 =>
      rcases h2.target_or with k | ⟨ws1, w, rest, T1, T2, rfl, k2, k3, k4⟩
      · exact .mk h1 k
      · refine absurd ⟨T1, hdr, ext, c, ws1, w, T2, rest, ?_, h1, k2, k3, k4⟩ hn
        simp only [List.append_assoc]

/-- C88: the same, for the standard format without a custom code table in any chunks. -/
theorem standard_refused_only_for_target (s : Settings) (dict : Bytes) (cs : List Bytes) (T : Bytes) (hx : ¬ Extended cs.flatten) (hc : ¬ CustomTable cs.flatten)
    (h : (configured { s with allowTarget := true }).decode dict cs = some T) :
    (configured { s with allowTarget := false }).decode dict cs = some T ↔ ¬ ∃ front, HasTargetWindow s dict cs.flatten front := by
  have e : ∀ b, (configured { s with allowTarget := b }).decode dict cs =
      (configured { s with allowTarget := b }).decode dict (cs.flatten.map fun b => [b]) :=
    fun b => (decode_std (d := configured { s with allowTarget := b }) rfl hx hc (singles_flatten _)).symm
  rw [e] at h ⊢
  exact refused_only_for_target s dict cs.flatten T h

/-- Non-vacuity, in both directions: a delta with a window on target data and one without, both accepted when it is allowed. -/
example : (configured {}).decode [] ((joinHeader ++ joinAdd ++ fromTarget).map fun b => [b]) = some [97, 98, 99, 97, 98, 99] ∧
    (configured { allowTarget := false }).decode [] ((joinHeader ++ joinAdd ++ fromTarget).map fun b => [b]) = none ∧
    (configured {}).decode [] ((joinHeader ++ joinAdd).map fun b => [b]) = some [97, 98, 99] ∧
    (configured { allowTarget := false }).decode [] ((joinHeader ++ joinAdd).map fun b => [b]) = some [97, 98, 99] := by
  decide +kernel

end Vcd.Props
