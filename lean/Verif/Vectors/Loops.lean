import Verif.Vectors.Check

/-!
# The decoder tests that alter or cut a file at every position

`FuzzBits`, `FuzzBitsWithChecksum`, `DecodeInTwoParts`, `DecodeInThreeParts` and `CustomCodeTableEncodingMatches`
of src/vcdecoder1_test.cc to src/vcdecoder4_test.cc. Tests run when the module is compiled, not proofs.
-/

namespace Vcd.Vectors.Loops

/-- `kDictionary` (src/vcdecoder_test.cc:41-44). -/
def dictionary : Bytes :=
  b 159 0x224a7573742074686520706c61636520666f72206120536e61726b2122207468652042656c6c6d616e2063726965642c0a4173206865206c616e646564206869732063726577207769746820636172653b0a537570706f7274696e672065616368206d616e206f6e2074686520746f70206f662074686520746964650a427920612066696e67657220656e7477696e656420696e2068697320686169722e0a

/-- `kExpectedTarget` (src/vcdecoder_test.cc:46-52). -/
def expected : Bytes :=
  b 178 0x224a7573742074686520706c61636520666f72206120536e61726b212049206861766520736169642069742074776963653a0a5468617420616c6f6e652073686f756c6420656e636f75726167652074686520637265772e0a4a7573742074686520706c61636520666f72206120536e61726b21204920686176652073616964206974207468726963653a0a5768617420492074656c6c20796f752074687265652074696d657320697320747275652e220a

/-- The delta file of `VCDiffStandardDecoderTest`. -/
def standard : Bytes :=
  b 131 0xd6c3c4000001811f0079813200640c032049206861766520736169642069742074776963653a0a5468617420616c6f6e652073686f756c6420656e636f75726167652074686520637265772e0a68725768617420492074656c20796f752074687265652074696d657320697320747275652e220a131c013d232ccb0a0002011b00582d

/-- The delta file of `VCDiffInterleavedDecoderTest`. -/
def interleaved : Bytes :=
  b 131 0xd6c3c4530001811f0079813200007300131c00013d2049206861766520736169642069742074776963653a0a5468617420616c6f6e652073686f756c6420656e636f75726167652074686520637265772e0a232c58cb68722d0a57686174204920746500026c011b20796f752074687265652074696d657320697320747275652e220a

/-- The delta file of `VCDiffInterleavedDecoderTest` with a checksum. -/
def withChecksum : Bytes :=
  b 136 0xd6c3c4530005811f007e81320000730084c4b8f930131c00013d2049206861766520736169642069742074776963653a0a5468617420616c6f6e652073686f756c6420656e636f75726167652074686520637265772e0a232c58cb68722d0a57686174204920746500026c011b20796f752074687265652074696d657320697320747275652e220a

/-- The delta file of `VCDiffStandardWindowDecoderTest`. -/
def standardWindows : Bytes :=
  b 176 0xd6c3c4000001811f00081c00000201131c0000443d003d02002049206861766520736169642069742074776963653a0a5468617420616c6f6e652073686f756c6420656e636f75726167652074686520637265772e0a013d025900082c00000201232c5802052e0907000201016872a700000f09000901005768617420492074650a000802000102006c000200221b001b020020796f752074687265652074696d657320697320747275652e220a011b

/-- The delta file of `VCDiffInterleavedWindowDecoderTest`. -/
def interleavedWindows : Bytes :=
  b 176 0xd6c3c4530001811f00081c00000300131c0000443d00003f00013d2049206861766520736169642069742074776963653a0a5468617420616c6f6e652073686f756c6420656e636f75726167652074686520637265772e0a025900082c00000300232c5802052e090700000400a7687200000f0900000a000a5768617420492074650008020000030000026c00221b00001d00011b20796f752074687265652074696d657320697320747275652e220a

/-- The target of the tests with several windows. -/
def windowsTarget : Bytes :=
  b 178 0x224a7573742074686520706c61636520666f72206120536e61726b212049206861766520736169642069742074776963653a0a5468617420616c6f6e652073686f756c6420656e636f75726167652074686520637265772e0a4a7573742074686520706c61636520666f72206120536e61726b21204920686176652073616964206974207468726963653a0a5768617420492074656c6c20796f752074687265652074696d657320697320747275652e220a

/-- `kEncodedCustomCodeTable` (src/vcdecoder4_test.cc). -/
def encodedTable : Bytes :=
  b 41 0xd6c3c45300018c00001f8c0000001900050201010213840d04031b3d3f840f021c4f10022c53874d10

/-- The files made by `FuzzOneByteInDeltaFile` (src/vcdecoder_test.cc:134-165). -/
def fuzzed (s : Bytes) : List Bytes :=
  [(0xff, 0x80, 0x00), (0xff, 0xff, 0x00), (0xff, 0x00, 0x80), (0xff, 0x00, 0xff), (0xff, 0x01, 0x00), (0x7f, 0x00, 0x00)].flatMap
    fun ((a, o, x) : UInt8 × UInt8 × UInt8) =>
      (List.range s.length).filterMap fun i =>
        let c := s.getD i 0
        let c' := ((c &&& a) ||| o) ^^^ x
        if c' = c then none else some (s.set i c')

/-- Whether an output comes without a fault and has a property: whether all calls returned `true`, and the output. -/
def decodes (dict : Bytes) (chunks : List Bytes) (p : Bool → Bytes → Bool) : Bool :=
  match feedAll (({} : Decoder).start dict) chunks 0 [] with
  | none => false
  | some (_, out, none) => p false out
  | some (_, out, some d) => p d.finish.1 out

#guard (fuzzed standard).all fun s => decodes dictionary [s] fun _ _ => true
#guard (fuzzed standard).all fun s => decodes dictionary (bytewise s) fun _ _ => true
#guard (fuzzed interleaved).all fun s => decodes dictionary [s] fun _ _ => true
#guard (fuzzed interleaved).all fun s => decodes dictionary (bytewise s) fun _ _ => true

#guard (fuzzed withChecksum).all fun s => decodes dictionary [s] fun ok out => if ok then out == expected else true
#guard (fuzzed withChecksum).all fun s =>
  decodes dictionary (bytewise s) fun ok out => (if ok then out == expected else true) && out.length ≤ expected.length

#guard (List.range standardWindows.length).all fun i =>
  decodes dictionary [standardWindows.take i, standardWindows.drop i] fun ok out => ok && out == windowsTarget
#guard (List.range interleavedWindows.length).all fun i =>
  decodes dictionary [interleavedWindows.take i, interleavedWindows.drop i] fun ok out => ok && out == windowsTarget

/-- Three parts. -/
def inThree (s : Bytes) : Bool :=
  (List.range s.length).all fun i => (List.range i).all fun j =>
    decodes dictionary [s.take j, (s.take i).drop j, s.drop i] fun ok out => ok && out == windowsTarget

#guard inThree standardWindows
#guard inThree interleavedWindows

/-- The code table of `CustomCodeTableEncodingMatches`. -/
def customTable : Bytes :=
  ((((defaultTable.inst1.set 3 2) ++ defaultTable.inst2 ++ (((((defaultTable.size1.set 17 27).set 18 61).set 34 28).set 50 44)) ++
    defaultTable.size2 ++ defaultTable.mode1 ++ defaultTable.mode2)))

#guard decodes defaultTable.toBytes [encodedTable] fun ok out => ok && out == customTable

end Vcd.Vectors.Loops
