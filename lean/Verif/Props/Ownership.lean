import Verif.Proof.Ownership
import Verif.Props.Release

/-!
# Dictionaries and encoders as objects (C75)

`World.run {} ops` is a program that constructs dictionaries and encoders, uses them and deletes them, in any order; it frees the memory it
passes as soon as a call returns. `obeyed [] [] ops` says that it keeps to the rules of src/google/vcencoder.h.
-/

namespace Vcd.Props
open Vcd.Spec hiding Op
open Vcd.Ownership (Op World Bad)

/-- C75: each encoder answers as if it and its dictionary were the only objects there are, the dictionary and the encoder were constructed at
the beginning, and there were no pointers. (`callsOf d e` leaves out what is done with other objects, and the constructions and deletions. If the program
was stopped by a fault, this is about the steps before it.) -/
theorem encoders_do_not_disturb_each_other (ops : List Op) (h : obeyed [] [] ops = true) (d e flags : Nat) (matching : Bool)
    (contents : Bytes) (he : (encodersOf ops)[e]? = some (d, flags, matching)) (hd : (dictionariesOf ops)[d]? = some contents) :
    Release.pairCalls (Encoder.newPair contents flags matching) (callsOf d e (ops.take (World.run {} ops).1.length)) =
      (repliesTo d e ops (World.run {} ops).1, none) :=
  (Ownership.run_all ops Ownership.Inv.new h (DD := dictionariesOf ops) (ED := encodersOf ops) rfl rfl).2.1 d e flags matching contents
    ⟨hd, fun z hz => by rw [he] at hz; exact (Option.some.inj hz).symm⟩

/-- C75: a program that keeps to the rules is stopped by nothing but a fault that one of its encoders with its dictionary, or one of its dictionaries,
meets alone. -/
theorem stopped_only_by_faults (ops : List Op) (h : obeyed [] [] ops = true) (b : Bad) (hb : (World.run {} ops).2.1 = some b) :
    ∃ f d e flags matching contents, b = .fault f ∧ (dictionariesOf ops)[d]? = some contents ∧
      (∀ z, (encodersOf ops)[e]? = some z → z = (d, flags, matching)) ∧
      Release.pairCalls (Encoder.newPair contents flags matching) (callsOf d e (ops.take ((World.run {} ops).1.length + 1))) =
        (repliesTo d e ops (World.run {} ops).1, some f) := by
  have k := (Ownership.run_all ops Ownership.Inv.new h (DD := dictionariesOf ops) (ED := encodersOf ops) rfl rfl).2.2
  rw [hb] at k
  obtain ⟨f, d, e, flags, matching, contents, k1, k2, k3⟩ := k
  exact ⟨f, d, e, flags, matching, contents, k1, k2.dict, k2.enc, k3⟩

/-- C75: within the limits of C68 a program that keeps to the rules is not stopped at all: no object is used after it has been deleted, nor
memory of the caller after the call it was passed to; no object is deleted twice; and no call crashes. Each encoder answers as it would alone. -/
theorem only_dictionary_kept_alive (ops : List Op) (h : obeyed [] [] ops = true)
    (hd : ∀ contents, .dictionary contents ∈ ops → contents.length < 2 ^ 31)
    (hs : ∀ contents e data, .dictionary contents ∈ ops → .call e (.chunk data) ∈ ops →
      contents.length + data.length < 2 ^ 31 ∧ data.length + 64 < 2 ^ 31) :
    (World.run {} ops).2.1 = none ∧ (World.run {} ops).1.length = ops.length ∧
    ∀ e d flags matching contents, (encodersOf ops)[e]? = some (d, flags, matching) → (dictionariesOf ops)[d]? = some contents →
      Release.pairCalls (Encoder.newPair contents flags matching) (callsOf d e ops) = (repliesTo d e ops (World.run {} ops).1, none) := by
  have hdict : ∀ {d : Nat} {contents : Bytes}, (dictionariesOf ops)[d]? = some contents → .dictionary contents ∈ ops := by
    intro d contents hc
    have hm := List.mem_of_getElem? hc
    unfold dictionariesOf at hm
    rw [List.mem_filterMap] at hm
    obtain ⟨op, h1, h2⟩ := hm
    cases op with
    | dictionary c => simp only [Option.some.injEq] at h2; subst h2; exact h1
    | _ => cases h2
  have hchunk : ∀ {d e k : Nat} {contents : Bytes}, .dictionary contents ∈ ops →
      EachPairChunk (fun data => contents.length + data.length < 2 ^ 31 ∧ data.length + 64 < 2 ^ 31) (callsOf d e (ops.take k)) := by
    intro d e k contents hc data hm
    unfold callsOf at hm
    rw [List.mem_filterMap] at hm
    obtain ⟨op, h1, h2⟩ := hm
    have h1 := List.mem_of_mem_take h1
    cases op with
    | call e' c =>
      simp only [concerns] at h2
      split at h2
      · simp only [Option.some.injEq, PairCall.encoder.injEq] at h2
        subst h2
        exact hs contents e' data hc h1
      · cases h2
    | init d' =>
      simp only [concerns] at h2
      split at h2
      · cases h2
      · cases h2
    | _ => cases h2
  have hstop : (World.run {} ops).2.1 = none := by
    cases hb : (World.run {} ops).2.1 with
    | none => rfl
    | some b =>
      obtain ⟨f, d, e, flags, matching, contents, _, k2, _, k4⟩ := stopped_only_by_faults ops h b hb
      have := release_build_never_crashes contents (hd _ (hdict k2)) flags matching _
        (hchunk (d := d) (e := e) (k := (World.run {} ops).1.length + 1) (hdict k2))
      rw [k4] at this
      cases this
  have hlen : (World.run {} ops).1.length = ops.length := by
    have k := (Ownership.run_all ops Ownership.Inv.new h (DD := dictionariesOf ops) (ED := encodersOf ops) rfl rfl).2.2
    rw [hstop] at k
    exact k
  refine ⟨hstop, hlen, fun e d flags matching contents he hc => ?_⟩
  have := encoders_do_not_disturb_each_other ops h d e flags matching contents he hc
  rwa [hlen, List.take_length] at this

/-- C75: when the program has deleted the dictionaries and encoders it has constructed, nothing is left: no copy of a dictionary, no engine, no block hash, no
writer. -/
theorem encoder_leaks_nothing (ops : List Op) (h : obeyed [] [] ops = true) (hd : ∀ x ∈ (World.run {} ops).2.2.dictionaries, x = none)
    (he : ∀ x ∈ (World.run {} ops).2.2.encoders, x = none) :
    let w := (World.run {} ops).2.2
    (∀ x ∈ w.arrays, x = none) ∧ (∀ x ∈ w.engines, x = none) ∧ (∀ x ∈ w.hashes, x = none) ∧ (∀ x ∈ w.writers, x = none) ∧
      (∀ x ∈ w.impls, x = none) := by
  obtain ⟨⟨D, E, hi⟩, _⟩ := Ownership.run_all ops Ownership.Inv.new h (DD := dictionariesOf ops) (ED := encodersOf ops) rfl rfl
  exact hi.no_leak hd he

/-- A program with two dictionaries and three encoders, two of them for the same dictionary; they take turns, the dictionary is initialised after one
of them has been started, and an encoder outlives the other dictionary. -/
def busyProgram : List Op :=
  [.dictionary [1, 2, 3], .dictionary [], .encoder 0 0 true, .encoder 1 3 false, .encoder 0 4 true, .call 0 .start, .init 0, .init 1,
   .call 1 .start, .call 2 .start, .call 0 (.chunk [9, 9]), .call 2 (.chunk [65]), .call 1 (.chunk [7]), .deleteEncoder 1, .deleteDictionary 1,
   .call 0 (.chunk [1, 2, 3]), .call 2 .finish, .call 0 .finish, .deleteEncoder 0, .deleteEncoder 2, .deleteDictionary 0]

/-- It meets the hypotheses. -/
example : obeyed [] [] busyProgram = true ∧
    callsOf 0 2 busyProgram = [.init, .encoder .start, .encoder (.chunk [65]), .encoder .finish] ∧
    (World.run {} busyProgram).2.1 = none := by
  have h : obeyed [] [] busyProgram = true := by decide
  refine ⟨h, by decide, (only_dictionary_kept_alive busyProgram h ?_ ?_).1⟩
  · intro contents hm
    simp only [busyProgram, List.mem_cons, Op.dictionary.injEq, reduceCtorEq, or_false, List.not_mem_nil] at hm
    rcases hm with rfl | rfl <;> decide
  · intro contents e data hc hm
    simp only [busyProgram, List.mem_cons, Op.dictionary.injEq, reduceCtorEq, or_false, List.not_mem_nil] at hc
    simp only [busyProgram, List.mem_cons, Op.call.injEq, EncoderCall.chunk.injEq, reduceCtorEq, and_false, false_or, or_false,
      List.not_mem_nil] at hm
    rcases hc with rfl | rfl <;> rcases hm with ⟨_, rfl⟩ | ⟨_, rfl⟩ | ⟨_, rfl⟩ | ⟨_, rfl⟩ <;> decide

/-- What the rules are for: if the dictionary is deleted while an encoder for it is to be used, the encoder uses memory that is gone; so does one
that is constructed for a dictionary that has been deleted; and nothing may be deleted twice. -/
example : (World.run {} [.dictionary [1, 2, 3], .encoder 0 4 true, .deleteDictionary 0, .call 0 .start]).2.1 = some .dead ∧
    (World.run {} [.dictionary [1, 2, 3], .deleteDictionary 0, .encoder 0 4 true]).2.1 = some .dead ∧
    (World.run {} [.dictionary [1, 2, 3], .deleteDictionary 0, .deleteDictionary 0]).2.1 = some .dead ∧
    obeyed [] [] [.dictionary [1, 2, 3], .encoder 0 4 true, .deleteDictionary 0, .call 0 .start] = false ∧
    obeyed [] [] [.dictionary [1, 2, 3], .deleteDictionary 0, .encoder 0 4 true] = false ∧
    obeyed [] [] [.dictionary [1, 2, 3], .deleteDictionary 0, .deleteDictionary 0] = false := by decide +kernel

/-- An encoder that is not deleted keeps its writer; the dictionary may not be deleted before it. -/
example : (World.run {} [.dictionary [1], .encoder 0 4 true]).2.2.writers.length = 1 ∧
    (World.run {} [.dictionary [1], .encoder 0 4 true, .deleteEncoder 0, .deleteDictionary 0]).2.2.writers = [none] := by
  decide +kernel

end Vcd.Props
