import Verif.Spec.Exec

/-!
# Edited versions of a dictionary
-/

namespace Vcd.Spec

/-- A piece of a text that is made from a dictionary: bytes of the dictionary, or fresh ones. -/
inductive Piece where
  | old (start size : Nat)
  | fresh (text : Bytes)

/-- The bytes of a piece. -/
def Piece.text (dict : Bytes) : Piece → Bytes
  | .old start size => (dict.drop start).take size
  | .fresh text => text

/-- The piece is in the dictionary if it is an old one. -/
def Piece.Within (dict : Bytes) : Piece → Prop
  | .old start size => start + size ≤ dict.length
  | .fresh _ => True

/-- The text made of some pieces. -/
def revise (dict : Bytes) (pieces : List Piece) : Bytes := pieces.flatMap (Piece.text dict)

/-- The number of fresh bytes. -/
def freshBytes : List Piece → Nat
  | [] => 0
  | .old _ _ :: ps => freshBytes ps
  | .fresh text :: ps => text.length + freshBytes ps

/-- The number of old pieces. -/
def oldPieces : List Piece → Nat
  | [] => 0
  | .old _ _ :: ps => 1 + oldPieces ps
  | .fresh _ :: ps => oldPieces ps

/-- No 32 bytes of the data occur in it at two positions. -/
def Distinct (data : Bytes) : Prop :=
  ∀ i j, i + 32 ≤ data.length → j + 32 ≤ data.length → (data.drop i).take 32 = (data.drop j).take 32 → i = j

/-- The bytes of the ADDs among some instructions. -/
def added : List Op → Nat
  | [] => 0
  | .add bs :: ops => bs.length + added ops
  | _ :: ops => added ops

/-- The number of ADDs. -/
def adds : List Op → Nat
  | [] => 0
  | .add _ :: ops => 1 + adds ops
  | _ :: ops => adds ops

/-- The number of COPYs. -/
def copies : List Op → Nat
  | [] => 0
  | .copy _ _ :: ops => 1 + copies ops
  | _ :: ops => copies ops

end Vcd.Spec
