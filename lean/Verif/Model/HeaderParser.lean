import Verif.Model.CodeTable

/-!
# Parsing of headers (src/headerparser.h, src/headerparser.cc)

A `VCDiffHeaderParser` is a position in a buffer plus a sticky `return_code_`. Once a `Parse...`
function has failed, the later ones do nothing (src/headerparser.cc:88-90, 102-104, 129-131), so a
sequence of calls whose return code is looked at later is modelled by `Parsed.bind`, which stops at
the first failure.
-/

namespace Vcd

/-- What a `Parse...` function leaves behind: a value and the new `UnparsedData()`, or
`RESULT_END_OF_DATA`, or `RESULT_ERROR` (src/headerparser.h:198-232). -/
inductive Parsed (α : Type) where
  | ok (value : α) (rest : Bytes)
  | endOfData
  | error
  deriving DecidableEq, Repr

/-- Sequencing under the sticky `return_code_` (src/headerparser.h:204-227). -/
def Parsed.bind {α β : Type} (p : Parsed α) (f : α → Bytes → Parsed β) : Parsed β :=
  match p with
  | .ok v rest => f v rest
  | .endOfData => .endOfData
  | .error => .error

/-- `VCDiffHeaderParser::ParseByte` (src/headerparser.cc:87-98). -/
def parseByte : Bytes → Parsed UInt8
  | [] => .endOfData
  | b :: rest => .ok b rest

/-- `VCDiffHeaderParser::ParseInt32` (src/headerparser.cc:100-121). -/
def parseInt32 (s : Bytes) : Parsed Nat :=
  match parseVarint32 s with
  | .ok v rest => .ok v rest
  | .endOfData => .endOfData
  | .error => .error

/-- `VCDiffHeaderParser::ParseUInt32` and `ParseChecksum` (src/headerparser.cc:127-166). -/
def parseUInt32 (s : Bytes) : Parsed Nat :=
  match parseVarint64 s with
  | .ok v rest => if v > 0xFFFFFFFF then .error else .ok v rest
  | .endOfData => .endOfData
  | .error => .error

/-- `VCDiffHeaderParser::ParseSize` (src/headerparser.cc:168-176). -/
def parseSize (s : Bytes) : Parsed Nat := parseInt32 s

/-- `VCDiffHeaderParser::ParseSourceSegmentLengthAndPosition` (src/headerparser.cc:178-217): the
length and position of the source segment. Both are at most `2^31 - 1`, so their sum does not
wrap. -/
def parseSourceSegment (fromSize : Nat) (s : Bytes) : Parsed (Nat × Nat) :=
  (parseSize s).bind fun len s =>
    if len > fromSize then .error
    else (parseSize s).bind fun pos s =>
      if pos ≥ fromSize ∧ len > 0 then .error
      else if pos + len > fromSize then .error
      else .ok (len, pos) s

/-- `VCD_SOURCE`, `VCD_TARGET`, `VCD_CHECKSUM` (src/vcdiff_defs.h:129-133). -/
def vcdSource : UInt8 := 0x01
/-- See `vcdSource`. -/
def vcdTarget : UInt8 := 0x02
/-- See `vcdSource`. -/
def vcdChecksum : UInt8 := 0x04

/-- `VCDiffHeaderParser::ParseWinIndicatorAndSourceSegment` (src/headerparser.cc:219-258): the
window indicator byte, the source segment length and its position. The length and position are
left alone in the `default` case; they are 0 then (src/vcdecoder.cc:996, 1078). -/
def parseWinIndicator (dictSize decodedSize : Nat) (allowTarget : Bool) (s : Bytes) :
    Parsed (UInt8 × Nat × Nat) :=
  (parseByte s).bind fun ind s =>
    let flags := ind &&& (vcdSource ||| vcdTarget)
    if flags = vcdSource then
      (parseSourceSegment dictSize s).bind fun lp s => .ok (ind, lp.1, lp.2) s
    else if flags = vcdTarget then
      if !allowTarget then .error
      else (parseSourceSegment decodedSize s).bind fun lp s => .ok (ind, lp.1, lp.2) s
    else if flags = vcdSource ||| vcdTarget then .error
    else .ok (ind, 0, 0) s

/-- `VCDiffHeaderParser::ParseDeltaIndicator` (src/headerparser.cc:286-298);
`VCD_DATACOMP | VCD_INSTCOMP | VCD_ADDRCOMP` is `7` (src/vcdiff_defs.h:163-165). -/
def parseDeltaIndicator (s : Bytes) : Parsed Unit :=
  (parseByte s).bind fun b s => if b &&& 7 ≠ 0 then .error else .ok () s

/-- The values read by `ParseSectionLengths`. -/
structure SectionLengths where
  dataLen : Nat
  instLen : Nat
  addrLen : Nat
  checksum : Option Nat
  deriving DecidableEq, Repr

/-- `VCDiffHeaderParser::ParseSectionLengths` (src/headerparser.cc:300-345), where
`deltaStart` is the buffer at `delta_encoding_start_` and `deltaLen` is `delta_encoding_length_`.
`SumWouldOverflow4` (lines 24-32, 323-332) is left out: three of the summands are below `2^31` and
the first one is the size of a piece of memory, so the sum cannot wrap. `Word.parseSectionLengths` has it. -/
def parseSectionLengths (hasChecksum : Bool) (deltaLen : Nat) (deltaStart : Bytes) (s : Bytes) :
    Parsed SectionLengths :=
  (parseSize s).bind fun dataLen s =>
  (parseSize s).bind fun instLen s =>
  (parseSize s).bind fun addrLen s =>
  (if hasChecksum then (parseUInt32 s).bind fun c s => .ok (some c) s else .ok none s).bind
    fun checksum s =>
      let headerLen := deltaStart.length - s.length
      if deltaLen ≠ headerLen + dataLen + instLen + addrLen then .error
      else .ok { dataLen, instLen, addrLen, checksum } s

end Vcd
