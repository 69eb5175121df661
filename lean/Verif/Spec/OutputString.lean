import Verif.Model.OutputString
import Verif.Spec.Rfc

/-!
# A string with a capacity

The caller's side of an output string (`std::string` and the like): contents, and a buffer of a certain
capacity that is replaced by another one when the string says so. Replacing it is a *resize*.
-/

namespace Vcd.Spec

/-- How a string chooses capacities: `append c n` is the new capacity when the contents grow to `n` bytes
and the capacity is `c < n`; `reserve c n` is the capacity after `reserve(n)`. -/
structure Growth where
  append : Nat → Nat → Nat
  reserve : Nat → Nat → Nat

/-- The capacity is always sufficient, and repeating a `reserve` changes nothing. This is so if `reserve`
never gives up capacity (`std::string` since C++20), and also if it fits the capacity exactly. -/
structure Growth.Steady (g : Growth) : Prop where
  append : ∀ c n, n ≤ g.append c n
  reserve : ∀ c n, n ≤ g.reserve c n
  again : ∀ c n, g.reserve (g.reserve c n) n = g.reserve c n

/-- A string: its contents, its capacity, and how often it has been resized. -/
structure OutString where
  text : Bytes := []
  capacity : Nat := 0
  resizes : Nat := 0
  deriving DecidableEq, Repr

/-- The contents fit the capacity. -/
def OutString.Ok (o : OutString) : Prop := o.text.length ≤ o.capacity

/-- A change of the capacity, if it is one. -/
def OutString.recap (o : OutString) (c : Nat) : OutString :=
  if c = o.capacity then o else { o with capacity := c, resizes := o.resizes + 1 }

/-- One operation. -/
def OutString.perform (g : Growth) (o : OutString) : OutOp → OutString
  | .append bytes =>
    let needed := o.text.length + bytes.length
    { (if needed ≤ o.capacity then o else o.recap (g.append o.capacity needed)) with text := o.text ++ bytes }
  | .reserve n => o.recap (g.reserve o.capacity (o.text.length + n))

/-- A sequence of operations. -/
def OutString.performAll (g : Growth) (o : OutString) (ops : List OutOp) : OutString := ops.foldl (·.perform g) o

/-- The operations among the events. -/
def opsOf (es : List OutEvent) : List OutOp :=
  es.filterMap fun
    | .op o => some o
    | .window => none

/-- The text the operations append. -/
def appendedBy (ops : List OutOp) : Bytes :=
  ops.flatMap fun
    | .append bytes => bytes
    | .reserve _ => []

/-- The number of windows among the events. -/
def windowsOf (es : List OutEvent) : Nat := es.count .window

/-- A sequence of `n` windows. -/
inductive WindowsN (c : Coding) (ext : Bool) (tol : Tolerance) (s : Settings) (dict : Bytes) :
    Nat → Bytes → Bytes → Bytes → Prop
  | nil {prev} : WindowsN c ext tol s dict 0 prev [] []
  | cons {n prev w T ws Ts} : WindowCode c ext tol s dict prev w T →
      WindowsN c ext tol s dict n (prev ++ T) ws Ts → WindowsN c ext tol s dict (n + 1) prev (w ++ ws) (T ++ Ts)

/-- A delta file of `n` windows: a header, which includes the windows that describe a code table, if there
are such, and `n` windows. -/
inductive FileCodeN (tol : Tolerance) (s : Settings) (dict : Bytes) : Nat → Bytes → Bytes → Prop
  | mk {n : Nat} {hdr ws T : Bytes} {ext : Bool} {c : Coding} : FileHeaderCode tol hdr ext c →
      WindowsN c ext tol s dict n [] ws T → FileCodeN tol s dict n (hdr ++ ws) T
  | empty : tol.empty = true → FileCodeN tol s dict 0 [] []

end Vcd.Spec
