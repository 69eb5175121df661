import Verif.Proof.Edit
import Verif.Props.Engine

/-!
# C62: a small edit gives a small delta
-/

namespace Vcd
open Spec

theorem added_costs : ∀ ops : List Op, (∀ b n, Op.run b n ∉ ops) → Writer.costs ops = added ops + 6 * adds ops + 11 * copies ops
  | [], _ => rfl
  | o :: ops, h => by
    have := added_costs ops fun b n hm => h b n (List.mem_cons_of_mem _ hm)
    cases o with
    | run b n => exact absurd (List.mem_cons_self ..) (h b n)
    | add bs =>
      simp only [Writer.costs, List.map_cons, List.sum_cons, Writer.cost, added, adds, copies] at this ⊢
      omega
    | copy a n =>
      simp only [Writer.costs, List.map_cons, List.sum_cons, Writer.cost, added, adds, copies] at this ⊢
      omega

theorem Engine.Whole.noRun {dict target : Bytes} {matching : Bool} {ops : List Op} (h : Engine.Whole dict target matching ops)
    (b : UInt8) (n : Nat) : Op.run b n ∉ ops := by
  intro hm
  obtain ⟨pre, post, he⟩ := List.append_of_mem hm
  exact h.emittable pre _ post he

theorem oldPieces_le (ps : List Piece) : oldPieces ps ≤ ps.length := by
  induction ps with
  | nil => simp [oldPieces]
  | cons p ps ih => cases p <;> simp only [oldPieces, List.length_cons] <;> omega

theorem Engine.Whole.edit {dict : Bytes} {matching : Bool} {ops : List Op} {ps : List Piece}
    (h : Engine.Whole dict (revise dict ps) matching ops) (hw : ∀ p ∈ ps, p.Within dict) (hd : Distinct dict)
    (hm : matching = true → Distinct (revise dict ps)) (hroom : ∀ b, (sharing dict (dict.length / 16) b).length ≤ 17) :
    added ops ≤ freshBytes ps + 31 * oldPieces ps ∧ 32 * Spec.copies ops ≤ freshBytes ps + 32 * ps.length ∧
      adds ops ≤ Spec.copies ops + 1 := by
  obtain ⟨h1, h2, h3⟩ := Engine.edit_counts hw rfl hd hm hroom h ops.length [] ops (Nat.le_refl _) rfl
  have f := freshIn_le ps 0 (sizes []) (revise dict ps).length
  have o := oldEnds_le ps 0 (sizes []) (revise dict ps).length
  have e := ends_le ps 0 (sizes []) (revise dict ps).length
  exact ⟨by omega, by omega, h3⟩

namespace Props

/-- C62. A COPY that the engine emits cannot be extended. To the right: it ends at the end of the dictionary or of the
chunk, or else the next byte of the chunk is another than the one that the COPY would take next. To the left, if there is an
ADD before it: it begins at the beginning of the dictionary or of the chunk, or else the last byte of the ADD is another than the
one before the source of the COPY. -/
theorem copies_are_maximal (dict chunk : Bytes) (matching : Bool) (e : Engine) (ops pre post : List Op) (a n : Nat)
    (hlen : dict.length + chunk.length < 2 ^ 31) (hi : Engine.init dict = .ok (some e))
    (he : e.encode matching chunk = .ok (ops.map Op.call ++ [.output])) (hops : ops = pre ++ .copy a n :: post) :
    (a + n = dict.length ∨ sizes pre + n = chunk.length ∨
      (dict ++ chunk)[a + n]? ≠ (dict ++ chunk)[dict.length + sizes pre + n]?) ∧
    (∀ pre' lit, pre = pre' ++ [.add lit] → a = 0 ∨ a = dict.length ∨
      (dict ++ chunk)[a - 1]? ≠ (dict ++ chunk)[dict.length + sizes pre - 1]?) := by
  have hw := Engine.encode_ops (by simp only [int32Max]; omega) hi he
  subst hops
  refine ⟨(hw.copies pre a n post rfl).right, ?_⟩
  rintro pre' lit rfl
  have := hw.left pre' lit a n post (by simp)
  simp only [Engine.LeftStop] at this
  rw [sizes_append]
  simpa [sizes, Op.size] using this

/-- C62. Let the chunk be made of pieces of the dictionary and fresh bytes; let no 32 bytes occur twice in the dictionary or,
with target matching, in the chunk; and let no bucket of the dictionary's hash table have more than 17 blocks. Then the ADDs
have no more bytes than the fresh ones and 31 for each old piece, and there are no more COPYs than pieces and one for every 32
fresh bytes. -/
theorem small_edits_few_instructions (dict : Bytes) (pieces : List Piece) (matching : Bool) (e : Engine) (ops : List Op)
    (hlen : dict.length + (revise dict pieces).length < 2 ^ 31)
    (hwithin : ∀ p ∈ pieces, p.Within dict) (hdict : Distinct dict) (hchunk : matching = true → Distinct (revise dict pieces))
    (hroom : ∀ b, (sharing dict (dict.length / 16) b).length ≤ 17) (hi : Engine.init dict = .ok (some e))
    (he : e.encode matching (revise dict pieces) = .ok (ops.map Op.call ++ [.output])) :
    added ops ≤ freshBytes pieces + 31 * oldPieces pieces ∧ copies ops ≤ pieces.length + freshBytes pieces / 32 ∧
      adds ops ≤ copies ops + 1 := by
  have hw := Engine.encode_ops (by simp only [int32Max]; omega) hi he
  obtain ⟨h1, h2, h3⟩ := hw.edit hwithin hdict hchunk hroom
  exact ⟨h1, by omega, h3⟩

/-- C62. The delta of the complete encode of such chunks, in any binary format: at most 5 bytes for the header and, for each
chunk, twice its fresh bytes, 48 bytes for each piece, and 44 bytes; however long the old pieces are. -/
theorem small_edits_small_delta (dict : Bytes) (flags : Nat) (matching : Bool) (versions : List (List Piece))
    (hb : flags &&& 4 = 0) (hlen : dict.length < 2 ^ 31)
    (hs : ∀ ps ∈ versions, dict.length + (revise dict ps).length < 2 ^ 31 ∧ (revise dict ps).length + 64 < 2 ^ 31)
    (hwithin : ∀ ps ∈ versions, ∀ p ∈ ps, p.Within dict) (hdict : Distinct dict)
    (hchunk : matching = true → ∀ ps ∈ versions, Distinct (revise dict ps))
    (hroom : ∀ b, (sharing dict (dict.length / 16) b).length ≤ 17) :
    ∃ delta, encode dict flags matching (versions.map (revise dict)) = .ok (some delta) ∧
      delta.length ≤ 5 + (versions.map fun ps => 2 * freshBytes ps + 48 * ps.length + 44).sum := by
  obtain ⟨engine, window, h1, h2, h3, h4⟩ := Encoder.protocol_full dict hlen flags hb matching
  obtain ⟨e', k⟩ := h2 ([.start] ++ (versions.map (revise dict)).map .chunk ++ [.finish]) (by
    intro data hm
    simp at hm
    obtain ⟨ps, hp, rfl⟩ := hm
    exact hs ps hp)
  refine ⟨Writer.header flags ++ (versions.map (revise dict)).flatMap window, ?_, ?_⟩
  · simp only [encode, h1, k, protocol_encode]
    rw [if_pos (by simp)]
    simp [List.flatMap_map]
  · rw [List.length_append]
    have hh : (Writer.header flags).length = 5 := by simp only [Writer.header]; split <;> rfl
    have key : ∀ vs : List (List Piece), (∀ ps ∈ vs, ps ∈ versions) → ((vs.map (revise dict)).flatMap window).length ≤
        (vs.map fun ps => 2 * freshBytes ps + 48 * ps.length + 44).sum := by
      intro vs
      induction vs with
      | nil => simp
      | cons ps vs ih =>
        intro hv
        have hp := hv ps (List.mem_cons_self ..)
        have := ih fun q hq => hv q (List.mem_cons_of_mem _ hq)
        simp only [List.map_cons, List.flatMap_cons, List.length_append, List.sum_cons] at this ⊢
        have : (window (revise dict ps)).length ≤ 2 * freshBytes ps + 48 * ps.length + 44 := by
          by_cases hne : revise dict ps = []
          · rw [hne, h3]; simp
          · obtain ⟨_, _, _, ⟨ops, w1, w2⟩, _⟩ := h4 _ hne (hs ps hp).1 (hs ps hp).2
            obtain ⟨c1, c2, c3⟩ := w1.edit (hwithin ps hp) hdict (fun hm => hchunk hm ps hp) hroom
            rw [added_costs ops w1.noRun] at w2
            have := oldPieces_le ps
            omega
        omega
    have := key versions fun _ h => h
    omega

/-- C62. In particular: some bytes of the dictionary are replaced by others, anywhere. -/
theorem one_edit_small_delta (before replaced after fresh : Bytes) (flags : Nat) (matching : Bool) (hb : flags &&& 4 = 0)
    (hs : (before ++ replaced ++ after).length + (before ++ fresh ++ after).length + 64 < 2 ^ 31)
    (hdict : Distinct (before ++ replaced ++ after)) (hchunk : matching = true → Distinct (before ++ fresh ++ after))
    (hroom : ∀ b, (sharing (before ++ replaced ++ after) ((before ++ replaced ++ after).length / 16) b).length ≤ 17) :
    ∃ delta, encode (before ++ replaced ++ after) flags matching [before ++ fresh ++ after] = .ok (some delta) ∧
      delta.length ≤ 2 * fresh.length + 193 := by
  have e : revise (before ++ replaced ++ after) [.old 0 before.length, .fresh fresh,
      .old (before.length + replaced.length) after.length] = before ++ fresh ++ after := by
    simp only [revise, Piece.text, List.flatMap_cons, List.flatMap_nil, List.append_nil]
    rw [List.drop_zero, List.append_assoc before replaced after, List.take_left', List.append_assoc]
    · congr 2
      rw [← List.append_assoc, List.drop_left' (by simp), List.take_length]
    · rfl
  obtain ⟨delta, h1, h2⟩ := small_edits_small_delta (before ++ replaced ++ after) flags matching
    [[.old 0 before.length, .fresh fresh, .old (before.length + replaced.length) after.length]] hb (by omega)
    (by intro ps hp; rw [List.mem_singleton] at hp; subst hp; rw [e]; omega)
    (by
      intro ps hp p hm
      rw [List.mem_singleton] at hp; subst hp
      simp only [List.mem_cons, List.not_mem_nil, or_false] at hm
      rcases hm with rfl | rfl | rfl <;> simp [Piece.Within]; omega)
    hdict (by intro hm ps hp; rw [List.mem_singleton] at hp; subst hp; rw [e]; exact hchunk hm) hroom
  simp only [List.map_cons, List.map_nil, e] at h1
  refine ⟨delta, h1, ?_⟩
  simp only [List.map_cons, List.map_nil, List.sum_cons, List.sum_nil, freshBytes, List.length_cons, List.length_nil] at h2
  omega

theorem distinct_of_nodup {data : Bytes} (h : data.Nodup) : Distinct data := by
  intro i j hi hj he
  rw [BlockHash.slice_eq] at he
  have := he 0 (by omega)
  rw [Nat.add_zero, Nat.add_zero, List.getElem?_eq_getElem (by omega), List.getElem?_eq_getElem (by omega)] at this
  rw [List.Nodup, List.pairwise_iff_getElem] at h
  rcases Nat.lt_trichotomy i j with hlt | rfl | hgt
  · exact absurd (Option.some.inj this) (h i j (by omega) (by omega) hlt)
  · rfl
  · exact absurd (Option.some.inj this).symm (h j i (by omega) (by omega) hgt)

-- The hypotheses are met: 200 bytes, of which 60 are replaced by 3. The bound is 199; the delta has 27 bytes.
example : ∃ delta, encode ((List.range 70).map UInt8.ofNat ++ (List.range' 70 60).map UInt8.ofNat ++
      (List.range' 130 70).map UInt8.ofNat) 0 true
      [(List.range 70).map UInt8.ofNat ++ [253, 254, 255] ++ (List.range' 130 70).map UInt8.ofNat] = .ok (some delta) ∧
      delta.length ≤ 199 :=
  one_edit_small_delta ((List.range 70).map UInt8.ofNat) ((List.range' 70 60).map UInt8.ofNat)
    ((List.range' 130 70).map UInt8.ofNat) [253, 254, 255] 0 true (by decide) (by decide +kernel)
    (distinct_of_nodup (by decide +kernel)) (fun _ => distinct_of_nodup (by decide +kernel))
    (fun b => Nat.le_trans (sharing_le _ _ b) (by decide +kernel))

example : ((encode ((List.range 200).map UInt8.ofNat) 0 true
    [(List.range 70).map UInt8.ofNat ++ [253, 254, 255] ++ (List.range' 130 70).map UInt8.ofNat]).toOption.map fun d =>
      d.map List.length) = some (some 27) := by decide +kernel

end Props
end Vcd
