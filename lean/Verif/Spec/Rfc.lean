import Verif.Spec.AddrCache
import Verif.Spec.CodeTable
import Verif.Spec.Exec
import Verif.Spec.Adler
import Verif.Spec.Decoder

/-!
# Specification of VCDIFF delta files (RFC 3284, sections 4 and 5, and the SDCH extensions)

`FileCode tol s dict bytes T` says that the delta file `bytes` denotes the target `T` relative to the
dictionary `dict`. It is written as a grammar: it says which byte strings stand for which targets, and
nothing about how to find out. `s` are the limits a decoder has been told to respect; `tol` chooses
between the RFC (`rfc`) and what this library takes for a delta file (`library`).

The library keeps sizes and positions in 31 bits; this is part of the grammar (`NumCode`, and the
bound on `here` in `HalfCode.copy`).
-/

namespace Vcd.Spec

/-- How a custom code table is written in a file header: not at all, as in RFC 3284 section 4.1, or
the way this library reads it. -/
inductive TableFormat where
  | none
  | rfc
  | library
  deriving DecidableEq

/-- Points on which the library and the RFC differ:
* `dangling`: the second half of the last opcode of a window may be missing;
* `excess`: an interleaved window may announce more bytes than it has;
* `empty`: a file of no bytes at all stands for the empty target;
* `trailing`: opcodes that produce nothing may follow the one that completes the target;
* `manyNear`: a window may have COPY instructions when there are 254 NEAR slots;
* `tables`: how a custom code table is written. -/
structure Tolerance where
  dangling : Bool
  excess : Bool
  empty : Bool
  trailing : Bool
  manyNear : Bool
  tables : TableFormat

/-- The RFC. -/
def rfc : Tolerance :=
  { dangling := false, excess := false, empty := false, trailing := true, manyNear := true, tables := .rfc }

/-- The library. -/
def library : Tolerance :=
  { dangling := true, excess := true, empty := true, trailing := false, manyNear := false, tables := .library }

/-- What the RFC and the library agree on. -/
def strict : Tolerance :=
  { dangling := false, excess := false, empty := false, trailing := false, manyNear := false, tables := .none }

/-- A size or position (RFC 3284, section 2). -/
def NumCode (bs : Bytes) (n : Nat) : Prop := IsVarint bs ∧ varintValue bs = n ∧ n ≤ 2147483647

/-- How a file codes its instructions: code table and sizes of the address caches. -/
structure Coding where
  table : CodeTable
  near : Nat
  same : Nat

/-- The coding used in the absence of a custom code table (RFC 3284, sections 5.3 and 5.6). -/
def defaultCoding : Coding := { table := defaultTable, near := 4, same := 3 }

/-- The pieces a window's instructions are written in. -/
inductive Item where
  | opcode (b : UInt8)
  | size (bs : Bytes)
  | data (bs : Bytes)
  | address (bs : Bytes)
  deriving DecidableEq, Repr

/-- The bytes of an item. -/
def Item.bytes : Item → Bytes
  | .opcode b => [b]
  | .size bs => bs
  | .data bs => bs
  | .address bs => bs

/-- What an item contributes to the instructions-and-sizes section (RFC 3284, section 4.3). -/
def Item.inst : Item → Bytes
  | .opcode b => [b]
  | .size bs => bs
  | _ => []

/-- What an item contributes to the data section. -/
def Item.dataBytes : Item → Bytes
  | .data bs => bs
  | _ => []

/-- What an item contributes to the addresses section. -/
def Item.addr : Item → Bytes
  | .address bs => bs
  | _ => []

/-- The size of an instruction: written after the opcode if the code table gives size 0, not written
otherwise (RFC 3284, section 5.4). -/
def SizeCode (h : Half) (bs : Bytes) (n : Nat) : Prop :=
  (h.size = 0 ∧ NumCode bs n) ∨ (h.size ≠ 0 ∧ bs = [] ∧ n = h.size.toNat)

/-- One half of an opcode, at position `here` after the COPY addresses `hist`: the items that follow
the opcode byte, and the instruction (if any) they stand for. -/
inductive HalfCode (c : Coding) (hist : List Nat) (here : Nat) (h : Half) : List Item → List Op → Prop
  | noop : h.inst.toNat = 0 → HalfCode c hist here h [] []
  | add {sb bs} : h.inst.toNat = 1 → SizeCode h sb bs.length →
      HalfCode c hist here h [.size sb, .data bs] [.add bs]
  | run {sb n} {b : UInt8} : h.inst.toNat = 2 → SizeCode h sb n →
      HalfCode c hist here h [.size sb, .data [b]] [.run b n]
  | copy {sb n bs a} : h.inst.toNat = 3 → SizeCode h sb n →
      AddrCode c.near c.same hist here h.mode.toNat bs a → a < here → here ≤ 2147483647 →
      HalfCode c hist here h [.size sb, .address bs] [.copy a n]

/-- The COPY addresses in a list of instructions. -/
def addrs (ops : List Op) : List Nat := ops.flatMap Op.addrs

/-- The instructions of a window: a list of items, in the order in which a reader needs them, and the
instructions they stand for. -/
inductive Program (c : Coding) (tol : Tolerance) : List Nat → Nat → List Item → List Op → Prop
  | nil {hist here} : Program c tol hist here [] []
  | cons {hist here op i1 o1 i2 o2 items ops} :
      HalfCode c hist here (c.table.first op) i1 o1 →
      HalfCode c (hist ++ addrs o1) (here + sizes o1) (c.table.second op) i2 o2 →
      Program c tol (hist ++ addrs o1 ++ addrs o2) (here + sizes o1 + sizes o2) items ops →
      Program c tol hist here (.opcode op :: (i1 ++ i2 ++ items)) (o1 ++ o2 ++ ops)
  | dangling {hist here op i1 o1} : tol.dangling = true → (c.table.second op).inst.toNat ≠ 0 →
      HalfCode c hist here (c.table.first op) i1 o1 →
      Program c tol hist here (.opcode op :: i1) o1

/-- The instructions end with the one that completes the target: the last item is an operand, and the
last instruction produces at least one byte. -/
def Tight (items : List Item) (ops : List Op) : Prop :=
  items = [] ∨
    ((∃ front bs, items = front ++ [.data bs] ∨ items = front ++ [.address bs]) ∧
      ∃ front o, ops = front ++ [o] ∧ 0 < o.size)

/-- The part of a window header that describes the source segment (RFC 3284, section 4.2): the bytes
after the window indicator `ind`, and the segment. -/
inductive SourceCode (allowTarget : Bool) (dict prev : Bytes) (ind : UInt8) : Bytes → Bytes → Prop
  | none : ind &&& 3 = 0 → SourceCode allowTarget dict prev ind [] []
  | dict {lb pb len pos} : ind &&& 3 = 1 → NumCode lb len → NumCode pb pos → pos + len ≤ dict.length →
      SourceCode allowTarget dict prev ind (lb ++ pb) ((dict.drop pos).take len)
  | target {lb pb len pos} : ind &&& 3 = 2 → allowTarget = true → NumCode lb len → NumCode pb pos →
      pos + len ≤ prev.length → SourceCode allowTarget dict prev ind (lb ++ pb) ((prev.drop pos).take len)

/-- The optional checksum field: the Adler-32 of the window's target. -/
def ChecksumCode (present : Bool) (T bs : Bytes) : Prop :=
  if present = true then IsVarint bs ∧ varintValue bs = adlerOf T else bs = []

/-- How items are distributed over the three sections. With the extensions, a window whose data and
address sections are empty has everything in the instructions section, in order. -/
def SectionCode (ext : Bool) (items : List Item) (data inst addr : Bytes) : Prop :=
  if ext = true ∧ data = [] ∧ addr = [] then inst = items.flatMap Item.bytes
  else data = items.flatMap Item.dataBytes ∧ inst = items.flatMap Item.inst ∧ addr = items.flatMap Item.addr

/-- A window (RFC 3284, sections 4.2 and 4.3) in a file whose target so far is `prev`: its bytes and
its target. `surplus` is 0 except for `excess` interleaved windows. The mode of a COPY is a byte, so
there can be 256 modes: SELF, HERE and one for each NEAR slot and each SAME block (`caches`). -/
inductive WindowCode (c : Coding) (ext : Bool) (tol : Tolerance) (s : Settings) (dict prev : Bytes) :
    Bytes → Bytes → Prop
  | mk {ind di : UInt8} {seg src dl tlen dlen ilen alen cks data inst addr T : Bytes} {items : List Item}
      {ops : List Op} {surplus : Nat}
      (source : SourceCode s.allowTarget dict prev ind seg src)
      (program : Program c tol [] src.length items ops)
      (tight : tol.trailing = true ∨ Tight items ops)
      (exec : execOps src ops = src ++ T)
      (windowLimit : T.length ≤ s.maxWindow)
      (fileLimit : prev.length + T.length ≤ s.maxFile)
      (sections : SectionCode ext items data inst addr)
      (noSurplus : surplus = 0 ∨ (tol.excess = true ∧ ext = true ∧ data = [] ∧ addr = []))
      (targetLength : NumCode tlen T.length)
      (deltaIndicator : di &&& 7 = 0)
      (dataLength : NumCode dlen data.length)
      (instLength : NumCode ilen (inst.length + surplus))
      (addrLength : NumCode alen addr.length)
      (checksum : ChecksumCode (ext && (ind &&& 4 != 0)) T cks)
      (deltaLength : NumCode dl ((tlen ++ [di] ++ dlen ++ ilen ++ alen ++ cks).length +
        (data.length + (inst.length + surplus) + addr.length)))
      (copies : tol.manyNear = true ∨ c.near ≤ 253 ∨ addrs ops = [])
      (caches : c.near + c.same ≤ 254) :
      WindowCode c ext tol s dict prev
        ([ind] ++ seg ++ dl ++ (tlen ++ [di] ++ dlen ++ ilen ++ alen ++ cks) ++ (data ++ inst ++ addr)) T

/-- A sequence of windows. -/
inductive Windows (c : Coding) (ext : Bool) (tol : Tolerance) (s : Settings) (dict : Bytes) :
    Bytes → Bytes → Bytes → Prop
  | nil {prev} : Windows c ext tol s dict prev [] []
  | cons {prev w T ws Ts} : WindowCode c ext tol s dict prev w T →
      Windows c ext tol s dict (prev ++ T) ws Ts → Windows c ext tol s dict prev (w ++ ws) (T ++ Ts)

/-- The limits for the delta file that describes a code table: it stands for 1536 bytes. -/
def tableSettings : Settings := { maxFile := 1536, maxWindow := 67108864, allowTarget := true }

/-- The code table that the library uses after it has read the code table `t`: `t` if it is usable with
these caches, and otherwise the code table `left` that it had before, which is the default code table
unless the decoder has been used before. -/
def Installed (near same : Nat) (t t' : CodeTable) (left : CodeTable := defaultTable) : Prop :=
  (ValidTable (near + same + 1) t ∧ t' = t) ∨ (¬ ValidTable (near + same + 1) t ∧ t' = left)

/-- A file header (RFC 3284, section 4.1): its bytes, whether the file uses the extensions, and the coding
of its windows. The version byte is 0, or `'S'` for the extensions. Secondary compression (bit 0 of
the header indicator) is not supported. A custom code table (bit 1) is written as a delta file relative
to the default code table (RFC 3284, section 7), which has a header of its own.

The RFC has the length of what follows, the sizes of the caches as bytes, and then that delta file. The
library has no length, the sizes as integers in the format of section 2, and then that delta file; as
it has no length, the delta file ends with the window that completes the 1536 bytes.

`left` is the code table that is used if the file does not bring a usable one. It is the default code
table, as the RFC says, if it is not given; only for decoders that have been used before can it be
another one. -/
inductive FileHeaderCode (tol : Tolerance) : Bytes → Bool → Coding → (left : CodeTable := defaultTable) → Prop
  | plain {v hi : UInt8} {left : CodeTable} : v = 0 ∨ v = 0x53 → hi &&& 3 = 0 →
      FileHeaderCode tol [0xD6, 0xC3, 0xC4, v, hi] (v == 0x53) { defaultCoding with table := left } left
  | rfc {v hi near same : UInt8} {lb hdr ws T : Bytes} {ext : Bool} {c : Coding} {left : CodeTable} : tol.tables = .rfc →
      v = 0 ∨ v = 0x53 → hi &&& 3 = 2 → NumCode lb (2 + (hdr ++ ws).length) →
      FileHeaderCode tol hdr ext c → Windows c ext tol tableSettings defaultTable.toBytes [] ws T →
      (hT : T.length = 1536) → ValidTable (near.toNat + same.toNat + 1) (CodeTable.ofBytes T hT) →
      FileHeaderCode tol ([0xD6, 0xC3, 0xC4, v, hi] ++ lb ++ [near, same] ++ (hdr ++ ws)) (v == 0x53)
        { table := CodeTable.ofBytes T hT, near := near.toNat, same := same.toNat } left
  | library {v hi : UInt8} {nb sb hdr ws w T T' : Bytes} {near same : Nat} {ext : Bool} {c : Coding}
      {t left : CodeTable} : tol.tables = .library →
      v = 0 ∨ v = 0x53 → hi &&& 3 = 2 → NumCode nb near → near ≤ 255 → NumCode sb same → same ≤ 255 →
      FileHeaderCode tol hdr ext c → Windows c ext tol tableSettings defaultTable.toBytes [] ws T →
      T.length < 1536 → WindowCode c ext tol tableSettings defaultTable.toBytes T w T' →
      (hT : (T ++ T').length = 1536) → Installed near same (CodeTable.ofBytes (T ++ T') hT) t left →
      FileHeaderCode tol ([0xD6, 0xC3, 0xC4, v, hi] ++ nb ++ sb ++ (hdr ++ (ws ++ w))) (v == 0x53)
        { table := t, near, same } left

/-- A delta file: a header and windows. -/
inductive FileCode (tol : Tolerance) (s : Settings) (dict : Bytes) : Bytes → Bytes → (left : CodeTable := defaultTable) → Prop
  | mk {hdr ws T : Bytes} {ext : Bool} {c : Coding} {left : CodeTable} : FileHeaderCode tol hdr ext c left →
      Windows c ext tol s dict [] ws T → FileCode tol s dict (hdr ++ ws) T left
  | empty {left : CodeTable} : tol.empty = true → FileCode tol s dict [] [] left

/-- The delta file `b` makes the code table `t` out of the default one, and ends with the window that completes it. -/
def TableCode (tol : Tolerance) (b : Bytes) (t : CodeTable) : Prop :=
  ∃ (hdr ws w T T' : Bytes) (ext : Bool) (c : Coding), b = hdr ++ (ws ++ w) ∧ FileHeaderCode tol hdr ext c ∧
    Windows c ext tol tableSettings defaultTable.toBytes [] ws T ∧ T.length < 1536 ∧
    WindowCode c ext tol tableSettings defaultTable.toBytes T w T' ∧ T ++ T' = t.toBytes

/-- The bytes `b` begin with a file header that brings the code table `t`, in the format of the library, which
the library takes to be usable: it does so if `t` is valid for the number of modes modulo 256. -/
def BringsTable (b : Bytes) (t : CodeTable) : Prop :=
  ∃ (v hi : UInt8) (nb sb tdelta tb u : Bytes) (near same : Nat) (h : tb.length = 1536),
    b = [0xD6, 0xC3, 0xC4, v, hi] ++ nb ++ sb ++ tdelta ++ u ∧ hi &&& 3 = 2 ∧ NumCode nb near ∧ NumCode sb same ∧
    FileCode library tableSettings defaultTable.toBytes tdelta tb ∧ t = CodeTable.ofBytes tb h ∧
    ValidTable ((near + same + 1) % 256) t

/-- One way to read a window as window indicator, source segment fields, length of the delta, target
length, delta indicator, section lengths, checksum field (if any) and sections. -/
structure Reading (w : Bytes) where
  ind : UInt8
  seg : Bytes
  dl : Bytes
  tlen : Bytes
  di : UInt8
  dlen : Bytes
  ilen : Bytes
  alen : Bytes
  cks : Bytes
  body : Bytes
  bytes : w = [ind] ++ seg ++ dl ++ tlen ++ [di] ++ dlen ++ ilen ++ alen ++ cks ++ body
  noSource : ind &&& 3 = 0 → seg = []
  source : ind &&& 3 ≠ 0 → ∃ lb pb, seg = lb ++ pb ∧ IsVarint lb ∧ IsVarint pb
  hdl : IsVarint dl
  htlen : IsVarint tlen
  hdlen : IsVarint dlen
  hilen : IsVarint ilen
  halen : IsVarint alen

/-- The layout of the window `w` for the target `T`: whether everything is in the instructions section (for a target
that is not empty, the data or the addresses section has something in it otherwise), and whether there is a checksum,
as the window indicator says; it is the Adler-32 of `T`. No other bits are set in the two indicators than those for a source
segment in the dictionary and for the checksum. -/
def Layout (interleaved checksum : Bool) (T w : Bytes) : Prop :=
  ∃ R : Reading w, (interleaved = true ↔ varintValue R.dlen = 0 ∧ varintValue R.alen = 0) ∧
    (R.ind = (if checksum = true then 5 else 1) ∧ R.di = 0) ∧ ChecksumCode checksum T R.cks

/-- A checksum field that holds the given value, or is absent. -/
def ChecksumField : Option Nat → Bytes → Prop
  | some v, bs => IsVarint bs ∧ varintValue bs = v
  | none, bs => bs = []

/-- The same for a window with any value as its checksum, right or wrong. -/
def Carries (interleaved : Bool) (checksum : Option Nat) (w : Bytes) : Prop :=
  ∃ R : Reading w, (interleaved = true ↔ varintValue R.dlen = 0 ∧ varintValue R.alen = 0) ∧
    (R.ind = (if checksum.isSome = true then 5 else 1) ∧ R.di = 0) ∧ ChecksumField checksum R.cks

/-- The targets of a list of windows with their targets. -/
def targets (parts : List (Bytes × Bytes)) : Bytes := parts.flatMap Prod.snd

end Vcd.Spec
