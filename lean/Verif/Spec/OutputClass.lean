import Verif.Model.OutputClass

/-!
# What is asked of an output class

src/google/output_string.h:28-42: the semantics of the methods "must be identical to the std::string methods of the same names", and
`ReserveAdditionalBytes` "can be defined to do nothing". `text` says what has arrived in an object of the class, in whatever form it is held there.
-/

namespace Vcd.Spec

variable {σ : Type}

/-- The methods that write extend the text as those of `std::string` do, and `ReserveAdditionalBytes` leaves it. -/
structure Extends (C : OutClass σ) (text : σ → Bytes) : Prop where
  append : ∀ o bytes, text (C.append o bytes) = text o ++ bytes
  pushBack : ∀ o byte, text (C.pushBack o byte) = text o ++ [byte]
  reserve : ∀ o n, text (C.reserve o n) = text o

/-- `clear` leaves no text. An object that hands the text on, to a file or to a connection, may not be able to do that. -/
def Clears (C : OutClass σ) (text : σ → Bytes) : Prop := ∀ o, text (C.clear o) = []

/-- `size` is the length of the text (modulo 2^64; a text that is in memory is shorter). -/
def Sized (C : OutClass σ) (text : σ → Bytes) : Prop := ∀ o, C.size o = UInt64.ofNat (text o).length

/-- A class whose methods are those of `std::string`; its `reserve` may do anything but to change the text. -/
structure LikeString (S : StringClass σ) (text : σ → Bytes) : Prop where
  append : ∀ o bytes, text (S.append o bytes) = text o ++ bytes
  clear : ∀ o, text (S.clear o) = []
  pushBack : ∀ o byte, text (S.pushBack o byte) = text o ++ [byte]
  reserve : ∀ o n, text (S.reserve o n) = text o
  size : ∀ o, S.size o = UInt64.ofNat (text o).length

end Vcd.Spec
