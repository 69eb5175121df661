import Verif.Proof.LifetimeChunk
import Verif.Props.Decoder

/-!
# The decoder's pointers (C74)

`Lifetime.life cs` is the life of a decoder in a model that has its pointers: it is constructed, the calls `cs` are made, and
it is destroyed. The caller frees the data of a call of `DecodeChunk` when it returns, and the dictionary when `FinishDecoding`
returns or a call of `DecodeChunk` fails. `Bad` has what must not happen then.
-/

namespace Vcd.Props
open Vcd.Lifetime (Bad)

/-- C74: whatever the calls and the deltas, the decoder with its pointers replies as the decoder of the other theorems, which has
none. So no pointer is ever used after what it points to has been freed, moved or reused. -/
theorem pointers_do_not_matter (cs : List DecoderCall) :
    Lifetime.life cs =
      match ({} : Decoder).calls cs with
      | .ok (replies, _) => .ok replies
      | .error f => .error (.fault f) := by
  have h := Lifetime.calls_rel (cs := cs) Lifetime.DecRel.new
  unfold Lifetime.life
  cases hv : ({} : Decoder).calls cs with
  | error f =>
    rw [hv] at h
    have hf : OnlyFault f := by
      rcases decoder_faults_partial cs f hv with k | ⟨k, _⟩
      · exact Or.inl k
      · exact Or.inr k
    rw [h hf]; rfl
  | ok x =>
    obtain ⟨rs, D⟩ := x
    rw [hv] at h
    obtain ⟨d, h1, h2⟩ := h
    rw [h1, Lifetime.ok_bind]
    simp only
    rw [h2.tidy]; rfl

/-- C74: in particular the decoder uses no freed or moved memory, no deleted object and no null pointer, deletes nothing twice, reads
nothing outside of a buffer, compares no pointers into different buffers, and leaks nothing. What remains are the two faults
of C04 and C05. -/
theorem no_dangling_pointer (cs : List DecoderCall) (e : Bad) (h : Lifetime.life cs = .error e) :
    e ≠ .dead ∧ e ≠ .outside ∧ e ≠ .unrelated ∧ e ≠ .leak ∧ (e = .fault .nearOverflow ∨ e = .fault .cacheOob) := by
  rw [pointers_do_not_matter] at h
  cases hv : ({} : Decoder).calls cs with
  | ok x => rw [hv] at h; simp at h
  | error f =>
    rw [hv] at h
    simp only [Except.error.injEq] at h
    subst h
    refine ⟨by simp, by simp, by simp, by simp, ?_⟩
    rcases decoder_faults_partial cs f hv with k | ⟨k, _⟩
    · rw [k]; simp
    · rw [k]; simp

/-- The number of `ParseableChunk` objects that a decoder keeps. -/
def objectsOf (L : Lifetime.Level) : Nat := (L.mem.objects.filter Option.isSome).length

theorem objects_of_rel {P : Lifetime.Level} {L : Level} (h : Lifetime.Rel P L) :
    objectsOf P = if P.window.found then 1 else 0 := by
  cases hw : L.win with
  | none =>
    obtain ⟨h1, _, h2⟩ := h.closed hw
    unfold objectsOf
    rw [h1, if_neg (by simp), Lifetime.filter_of_dead (fun k c hk => h2.live k ⟨c, hk⟩)]
    rfl
  | some w =>
    have ho := h.opened w hw
    obtain ⟨i, hi⟩ := ho.shared
    unfold objectsOf
    rw [ho.found, if_pos rfl]
    exact Lifetime.filter_of_one hi.live

/-- C74: between calls a decoder, and each decoder nested in it for a code table, has exactly one section object while a window is being
decoded, and none otherwise: memory does not build up, however many windows and chunks there are. -/
theorem objects_between_calls (cs : List DecoderCall) (replies : List DecoderReply) (d : Lifetime.Decoder)
    (h : ({} : Lifetime.Decoder).calls cs = .ok (replies, d)) :
    ∀ L ∈ d.top :: d.nested, objectsOf L = if L.window.found then 1 else 0 := by
  have hr := Lifetime.calls_rel (cs := cs) Lifetime.DecRel.new
  cases hv : ({} : Decoder).calls cs with
  | error f =>
    rw [hv] at hr
    have hf : OnlyFault f := by
      rcases decoder_faults_partial cs f hv with k | ⟨k, _⟩
      · exact Or.inl k
      · exact Or.inr k
    rw [h] at hr
    exact absurd (hr hf) (by simp)
  | ok x =>
    obtain ⟨rs, D⟩ := x
    rw [hv] at hr
    obtain ⟨d', h1, h2⟩ := hr
    rw [h] at h1
    simp only [Except.ok.injEq, Prod.mk.injEq] at h1
    obtain ⟨rfl, rfl⟩ := h1
    rcases h2 with ⟨h3, h4, _⟩ | ⟨h3, h4⟩
    · intro L hL
      rw [h4] at hL
      simp only [List.mem_singleton] at hL
      subst hL
      unfold objectsOf
      rw [h3.closed, if_neg (by simp), Lifetime.filter_of_dead (fun k c hk => h3.empty.live k ⟨c, hk⟩)]
      rfl
    · have key : ∀ {Ps : List Lifetime.Level} {Ls : List Level}, Lifetime.Lives Ps Ls →
          ∀ P ∈ Ps, objectsOf P = if P.window.found then 1 else 0 := by
        intro Ps
        induction Ps with
        | nil => intro _ _ P hP; simp at hP
        | cons Q Ps ih =>
          intro Ls hl P hP
          cases Ls with
          | nil => exact hl.elim
          | cons L Ls =>
            rcases List.mem_cons.1 hP with rfl | hP
            · exact objects_of_rel hl.1.rel
            · exact ih hl.2 P hP
      exact key (Ps := d.top :: d.nested) (Ls := D.top :: D.nested) ⟨h3, h4⟩

/-- Two windows; the second one has the first one's target as its source. -/
def targetDelta : Bytes := stdDelta ++ [2, 3, 0, 8, 3, 0, 0, 2, 1, 19, 3, 0]

/-- The replies to a life without anything bad. -/
def repliesOf (cs : List DecoderCall) : Option (List DecoderReply) :=
  match Lifetime.life cs with
  | .ok rs => some rs
  | .error _ => none

/-- An interleaved window in three chunks, with an object between them; a window that copies from an earlier one; and a decoder that is
destroyed while it decodes. -/
example :
    repliesOf [.start [], .chunk (interDelta.take 13), .chunk ((interDelta.drop 13).take 1), .chunk (interDelta.drop 14), .finish] =
      some [⟨true, []⟩, ⟨true, []⟩, ⟨true, []⟩, ⟨true, [0x61, 0x62, 0x63]⟩, ⟨true, []⟩] ∧
    (match ({} : Lifetime.Decoder).calls [.start [], .chunk (interDelta.take 14)] with
      | .ok (_, d) => some (objectsOf d.top, d.top.window.found)
      | .error _ => none) = some (1, true) ∧
    repliesOf [.start [], .chunk targetDelta, .finish] =
      some [⟨true, []⟩, ⟨true, [0x61, 0x62, 0x63, 0x61, 0x62, 0x63]⟩, ⟨true, []⟩] ∧
    repliesOf [.start [], .chunk (interDelta.take 14)] = some [⟨true, []⟩, ⟨true, []⟩] := by decide +kernel

/-- A custom code table (the default one, copied by a window of the nested delta), cut off inside of the nested delta and inside of the
window that follows. -/
example :
    let delta : Bytes := [0xD6, 0xC3, 0xC4, 0, 2, 4, 3, 0xD6, 0xC3, 0xC4, 0, 0, 1, 0x8C, 0x00, 0, 10, 0x8C, 0x00, 0, 0, 3, 1,
      19, 0x8C, 0x00, 0, 0, 9, 3, 0, 3, 1, 0, 0x61, 0x62, 0x63, 4]
    repliesOf [.start [], .chunk (delta.take 20), .chunk ((delta.drop 20).take 10), .chunk (delta.drop 30), .finish] =
      some [⟨true, []⟩, ⟨true, []⟩, ⟨true, []⟩, ⟨true, [0x61, 0x62, 0x63]⟩, ⟨true, []⟩] ∧
    repliesOf [.start [], .chunk (delta.take 20)] = some [⟨true, []⟩, ⟨true, []⟩] := by decide +kernel

/-- The model of memory does tell: reading from a dictionary that has been freed, outside of a buffer, or from a string that has been
moved; deleting twice; the end of a decoder with an object that nobody owns. -/
example :
    (match ({} : Lifetime.Mem).read ⟨.dict, 0⟩ 1 with | .error e => some e | .ok _ => none) = some .dead ∧
    (match ({ dict := some [1, 2] } : Lifetime.Mem).read ⟨.dict, 1⟩ 2 with | .error e => some e | .ok _ => none) = some .outside ∧
    (match ({ decoded := ({ text := [1], capacity := 1 } : Lifetime.Str).append [2] } : Lifetime.Mem).read ⟨.decoded 0, 0⟩ 1 with
      | .error e => some e | .ok _ => none) = some .dead ∧
    (match ({ objects := [none] } : Lifetime.Mem).delete (some 0) with | .error e => some e | .ok _ => none) = some .dead ∧
    (match ({ mem := { objects := [some (.over ⟨.dict, 0⟩ 0)] } } : Lifetime.Level).destroy with
      | .error e => some e | .ok _ => none) = some .leak := by decide +kernel

end Vcd.Props
