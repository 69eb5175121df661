import Verif.Spec.Rfc

/-!
# Damaged windows

What it means that a checksum, or one byte of literal text, has been changed in a window.
-/

namespace Vcd.Spec

/-- The length of the source segment, as the header of a window says. -/
def SegmentLength {w : Bytes} (R : Reading w) (n : Nat) : Prop :=
  (R.ind &&& 3 = 0 ∧ n = 0) ∨
    (R.ind &&& 3 ≠ 0 ∧ ∃ lb pb, R.seg = lb ++ pb ∧ IsVarint lb ∧ IsVarint pb ∧ varintValue lb = n)

/-- The window `w` has a source segment of `n` bytes, and is written as `items`, for the instructions `ops`: they produce as
many bytes as announced, with the last of them, and fill the sections. -/
structure WrittenAs (c : Coding) (ext : Bool) {w : Bytes} (R : Reading w) (n : Nat) (items : List Item) (ops : List Op) : Prop where
  segment : SegmentLength R n
  checksum : if ext = true ∧ R.ind &&& 4 ≠ 0 then IsVarint R.cks else R.cks = []
  program : Program c library [] n items ops
  complete : varintValue R.tlen = sizes ops ∧ Tight items ops
  sections : ∃ data inst addr, SectionCode ext items data inst addr ∧ R.body = data ++ inst ++ addr ∧
    varintValue R.dlen = data.length ∧ varintValue R.ilen = inst.length ∧ varintValue R.alen = addr.length

/-- `w'` is the window `w` with another checksum of the same number of bytes. -/
def ChecksumChanged (w w' : Bytes) : Prop :=
  ∃ (R : Reading w) (cks : Bytes), R.ind &&& 4 ≠ 0 ∧ IsVarint R.cks ∧ cks.length = R.cks.length ∧ cks ≠ R.cks ∧
    w' = [R.ind] ++ R.seg ++ R.dl ++ R.tlen ++ [R.di] ++ R.dlen ++ R.ilen ++ R.alen ++ cks ++ R.body

/-- `w'` is the window `w`, which has a checksum, with another byte in one place of the text of its ADD and RUN instructions.
`n` is the length of the source segment, and `ops` are the instructions of `w`. -/
def LiteralChanged (c : Coding) (n : Nat) (ops : List Op) (w w' : Bytes) : Prop :=
  ∃ (R : Reading w) (head a z data inst addr : Bytes) (x y : UInt8) (front back : List Item),
    R.ind &&& 4 ≠ 0 ∧ w = head ++ R.body ∧ x ≠ y ∧
    WrittenAs c true R n (front ++ .data (a ++ x :: z) :: back) ops ∧
    SectionCode true (front ++ .data (a ++ y :: z) :: back) data inst addr ∧ data.length = varintValue R.dlen ∧
    w' = head ++ (data ++ inst ++ addr)

/-- `w'` is the window `w`, which has a checksum, with another byte in one place of its data section. -/
def DataChanged (w w' : Bytes) : Prop :=
  ∃ (R : Reading w) (head a z : Bytes) (x y : UInt8), R.ind &&& 4 ≠ 0 ∧ IsVarint R.cks ∧ w = head ++ R.body ∧ x ≠ y ∧
    R.body = a ++ x :: z ∧ a.length < varintValue R.dlen ∧ w' = head ++ (a ++ y :: z)

/-- An instruction that takes what it produces from the delta, or from the first `n` bytes: from the source segment, if that
has `n` bytes. A RUN, which repeats one byte of the delta, is excluded. -/
def FromOutside (n : Nat) : Op → Prop
  | .add _ => True
  | .copy a k => a + k ≤ n
  | .run _ _ => False

end Vcd.Spec
