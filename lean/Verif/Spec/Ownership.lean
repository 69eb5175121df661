import Verif.Model.Ownership

/-!
# Rules for the lifetimes of dictionaries and encoders, and what one of the encoders has to do with it

src/google/vcencoder.h:35-36 and 70-72: "dictionary_contents is copied into the HashedDictionary, so the caller may free that
string, if desired, after the constructor returns"; "The HashedDictionary object passed to the constructor must remain valid, without being
deleted, for the lifetime of the VCDiffStreamingEncoder object".
-/

namespace Vcd.Spec
open Vcd.Ownership (Op)

/-- The rules: a dictionary or encoder is used only between its construction and its deletion, and a dictionary is not deleted while an
encoder for it exists. `dicts` says of each dictionary constructed so far whether it exists; `encs` has for each encoder constructed so far its
dictionary, or `none` if the encoder has been deleted. -/
def obeyed (dicts : List Bool) (encs : List (Option Nat)) : List Op → Bool
  | [] => true
  | .dictionary _ :: ops => obeyed (dicts ++ [true]) encs ops
  | .init d :: ops => dicts[d]? == some true && obeyed dicts encs ops
  | .deleteDictionary d :: ops => dicts[d]? == some true && !encs.contains (some d) && obeyed (dicts.set d false) encs ops
  | .encoder d _ _ :: ops => dicts[d]? == some true && obeyed dicts (encs ++ [some d]) ops
  | .call e _ :: ops => (encs[e]?.join).isSome && obeyed dicts encs ops
  | .deleteEncoder e :: ops => (encs[e]?.join).isSome && obeyed dicts (encs.set e none) ops

/-- The contents of the dictionaries a program constructs. -/
def dictionariesOf (ops : List Op) : List Bytes :=
  ops.filterMap fun | .dictionary contents => some contents | _ => none

/-- The encoders a program constructs: dictionary, format flags, `look_for_target_matches`. -/
def encodersOf (ops : List Op) : List (Nat × Nat × Bool) :=
  ops.filterMap fun | .encoder d flags matching => some (d, flags, matching) | _ => none

/-- What a step means for encoder number `e` and dictionary number `d`: a call of one of the two, or nothing. -/
def concerns (d e : Nat) : Op → Option PairCall
  | .init d' => if d' = d then some .init else none
  | .call e' c => if e' = e then some (.encoder c) else none
  | _ => none

/-- The calls of encoder `e` and of dictionary `d` among the steps of a program. -/
def callsOf (d e : Nat) (ops : List Op) : List PairCall := ops.filterMap (concerns d e)

/-- The replies to them. -/
def repliesTo (d e : Nat) (ops : List Op) (replies : List (Option EncoderReply)) : List EncoderReply :=
  (ops.zip replies).filterMap fun p => if (concerns d e p.1).isSome then p.2 else none

end Vcd.Spec
