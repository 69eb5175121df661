import Verif.Vectors.Check

/-!
# The tests of src/vcdecoder4_test.cc as expectations on the model

Tests run when the module is compiled, not proofs. Left out: tests that place buffers next to unmapped pages. The tests
that alter or cut a file at every position are in `Verif.Vectors.Loops`.
-/

namespace Vcd.Vectors.Windows

/-- `kDictionary` (src/vcdecoder_test.cc:41-44). -/
def dictionary : Bytes :=
  b 159 0x224a7573742074686520706c61636520666f72206120536e61726b2122207468652042656c6c6d616e2063726965642c0a4173206865206c616e646564206869732063726577207769746820636172653b0a537570706f7274696e672065616368206d616e206f6e2074686520746f70206f662074686520746964650a427920612066696e67657220656e7477696e656420696e2068697320686169722e0a

/-! `VCDiffDecoderInterleavedAllowedButNotUsed.Decode` -/
#guard (⟨[], dictionary, [b 131 0xd6c3c4530001811f0079813200640c032049206861766520736169642069742074776963653a0a5468617420616c6f6e652073686f756c6420656e636f75726167652074686520637265772e0a68725768617420492074656c20796f752074687265652074696d657320697320747275652e220a131c013d232ccb0a0002011b00582d], .accepted true, .exactly (b 178 0x224a7573742074686520706c61636520666f72206120536e61726b212049206861766520736169642069742074776963653a0a5468617420616c6f6e652073686f756c6420656e636f75726167652074686520637265772e0a4a7573742074686520706c61636520666f72206120536e61726b21204920686176652073616964206974207468726963653a0a5768617420492074656c6c20796f752074687265652074696d657320697320747275652e220a)⟩ : Vector).check

/-! `VCDiffDecoderInterleavedAllowedButNotUsed.DecodeWithChecksum` -/
#guard (⟨[], dictionary, [b 136 0xd6c3c4530005811f007e813200640c0384c4b8f9302049206861766520736169642069742074776963653a0a5468617420616c6f6e652073686f756c6420656e636f75726167652074686520637265772e0a68725768617420492074656c20796f752074687265652074696d657320697320747275652e220a131c013d232ccb0a0002011b00582d], .accepted true, .exactly (b 178 0x224a7573742074686520706c61636520666f72206120536e61726b212049206861766520736169642069742074776963653a0a5468617420616c6f6e652073686f756c6420656e636f75726167652074686520637265772e0a4a7573742074686520706c61636520666f72206120536e61726b21204920686176652073616964206974207468726963653a0a5768617420492074656c6c20796f752074687265652074696d657320697320747275652e220a)⟩ : Vector).check

/-! `VCDiffDecoderInterleavedAllowedButNotUsedByteByByte.Decode` -/
#guard (⟨[], dictionary, bytewise (b 131 0xd6c3c4530001811f0079813200640c032049206861766520736169642069742074776963653a0a5468617420616c6f6e652073686f756c6420656e636f75726167652074686520637265772e0a68725768617420492074656c20796f752074687265652074696d657320697320747275652e220a131c013d232ccb0a0002011b00582d), .accepted true, .exactly (b 178 0x224a7573742074686520706c61636520666f72206120536e61726b212049206861766520736169642069742074776963653a0a5468617420616c6f6e652073686f756c6420656e636f75726167652074686520637265772e0a4a7573742074686520706c61636520666f72206120536e61726b21204920686176652073616964206974207468726963653a0a5768617420492074656c6c20796f752074687265652074696d657320697320747275652e220a)⟩ : Vector).check

/-! `VCDiffDecoderInterleavedAllowedButNotUsedByteByByte.DecodeWithChecksum` -/
#guard (⟨[], dictionary, bytewise (b 136 0xd6c3c4530005811f007e813200640c0384c4b8f9302049206861766520736169642069742074776963653a0a5468617420616c6f6e652073686f756c6420656e636f75726167652074686520637265772e0a68725768617420492074656c20796f752074687265652074696d657320697320747275652e220a131c013d232ccb0a0002011b00582d), .accepted true, .exactly (b 178 0x224a7573742074686520706c61636520666f72206120536e61726b212049206861766520736169642069742074776963653a0a5468617420616c6f6e652073686f756c6420656e636f75726167652074686520637265772e0a4a7573742074686520706c61636520666f72206120536e61726b21204920686176652073616964206974207468726963653a0a5768617420492074656c6c20796f752074687265652074696d657320697320747275652e220a)⟩ : Vector).check

/-! `VCDiffDecoderInterleavedUsedButNotSupported.DecodeShouldFail` -/
#guard (⟨[], dictionary, [b 131 0xd6c3c4000001811f0079813200007300131c00013d2049206861766520736169642069742074776963653a0a5468617420616c6f6e652073686f756c6420656e636f75726167652074686520637265772e0a232c58cb68722d0a57686174204920746500026c011b20796f752074687265652074696d657320697320747275652e220a], .failsAt 0, .exactly (b 0 0)⟩ : Vector).check

/-! `VCDiffDecoderInterleavedUsedButNotSupported.DecodeByteByByteShouldFail` -/
#guard (⟨[], dictionary, bytewise (b 131 0xd6c3c4000001811f0079813200007300131c00013d2049206861766520736169642069742074776963653a0a5468617420616c6f6e652073686f756c6420656e636f75726167652074686520637265772e0a232c58cb68722d0a57686174204920746500026c011b20796f752074687265652074696d657320697320747275652e220a), .failsBy 130, .atMost 178⟩ : Vector).check

/-! `VCDiffStandardWindowDecoderTest.Decode` -/
#guard (⟨[], dictionary, [b 176 0xd6c3c4000001811f00081c00000201131c0000443d003d02002049206861766520736169642069742074776963653a0a5468617420616c6f6e652073686f756c6420656e636f75726167652074686520637265772e0a013d025900082c00000201232c5802052e0907000201016872a700000f09000901005768617420492074650a000802000102006c000200221b001b020020796f752074687265652074696d657320697320747275652e220a011b], .accepted true, .exactly (b 178 0x224a7573742074686520706c61636520666f72206120536e61726b212049206861766520736169642069742074776963653a0a5468617420616c6f6e652073686f756c6420656e636f75726167652074686520637265772e0a4a7573742074686520706c61636520666f72206120536e61726b21204920686176652073616964206974207468726963653a0a5768617420492074656c6c20796f752074687265652074696d657320697320747275652e220a)⟩ : Vector).check

/-! `VCDiffStandardWindowDecoderTest.TargetMatchesWindowSizeLimit` -/
#guard (⟨[.setMaxWin 61], dictionary, [b 176 0xd6c3c4000001811f00081c00000201131c0000443d003d02002049206861766520736169642069742074776963653a0a5468617420616c6f6e652073686f756c6420656e636f75726167652074686520637265772e0a013d025900082c00000201232c5802052e0907000201016872a700000f09000901005768617420492074650a000802000102006c000200221b001b020020796f752074687265652074696d657320697320747275652e220a011b], .accepted true, .exactly (b 178 0x224a7573742074686520706c61636520666f72206120536e61726b212049206861766520736169642069742074776963653a0a5468617420616c6f6e652073686f756c6420656e636f75726167652074686520637265772e0a4a7573742074686520706c61636520666f72206120536e61726b21204920686176652073616964206974207468726963653a0a5768617420492074656c6c20796f752074687265652074696d657320697320747275652e220a)⟩ : Vector).check

/-! `VCDiffStandardWindowDecoderTest.TargetMatchesFileSizeLimit` -/
#guard (⟨[.setMaxFile 178], dictionary, [b 176 0xd6c3c4000001811f00081c00000201131c0000443d003d02002049206861766520736169642069742074776963653a0a5468617420616c6f6e652073686f756c6420656e636f75726167652074686520637265772e0a013d025900082c00000201232c5802052e0907000201016872a700000f09000901005768617420492074650a000802000102006c000200221b001b020020796f752074687265652074696d657320697320747275652e220a011b], .accepted true, .exactly (b 178 0x224a7573742074686520706c61636520666f72206120536e61726b212049206861766520736169642069742074776963653a0a5468617420616c6f6e652073686f756c6420656e636f75726167652074686520637265772e0a4a7573742074686520706c61636520666f72206120536e61726b21204920686176652073616964206974207468726963653a0a5768617420492074656c6c20796f752074687265652074696d657320697320747275652e220a)⟩ : Vector).check

/-! `VCDiffStandardWindowDecoderTest.TargetExceedsWindowSizeLimit` -/
#guard (⟨[.setMaxWin 60], dictionary, [b 176 0xd6c3c4000001811f00081c00000201131c0000443d003d02002049206861766520736169642069742074776963653a0a5468617420616c6f6e652073686f756c6420656e636f75726167652074686520637265772e0a013d025900082c00000201232c5802052e0907000201016872a700000f09000901005768617420492074650a000802000102006c000200221b001b020020796f752074687265652074696d657320697320747275652e220a011b], .failsAt 0, .exactly (b 0 0)⟩ : Vector).check

/-! `VCDiffStandardWindowDecoderTest.TargetExceedsFileSizeLimit` -/
#guard (⟨[.setMaxFile 177], dictionary, [b 176 0xd6c3c4000001811f00081c00000201131c0000443d003d02002049206861766520736169642069742074776963653a0a5468617420616c6f6e652073686f756c6420656e636f75726167652074686520637265772e0a013d025900082c00000201232c5802052e0907000201016872a700000f09000901005768617420492074650a000802000102006c000200221b001b020020796f752074687265652074696d657320697320747275652e220a011b], .failsAt 0, .exactly (b 0 0)⟩ : Vector).check

/-! `VCDiffStandardWindowDecoderTestByteByByte.Decode` -/
#guard (⟨[], dictionary, bytewise (b 176 0xd6c3c4000001811f00081c00000201131c0000443d003d02002049206861766520736169642069742074776963653a0a5468617420616c6f6e652073686f756c6420656e636f75726167652074686520637265772e0a013d025900082c00000201232c5802052e0907000201016872a700000f09000901005768617420492074650a000802000102006c000200221b001b020020796f752074687265652074696d657320697320747275652e220a011b), .accepted true, .exactly (b 178 0x224a7573742074686520706c61636520666f72206120536e61726b212049206861766520736169642069742074776963653a0a5468617420616c6f6e652073686f756c6420656e636f75726167652074686520637265772e0a4a7573742074686520706c61636520666f72206120536e61726b21204920686176652073616964206974207468726963653a0a5768617420492074656c6c20796f752074687265652074696d657320697320747275652e220a)⟩ : Vector).check

/-! `VCDiffStandardWindowDecoderTestByteByByte.DecodeExplicitVcdTarget` -/
#guard (⟨[.setAllowTarget true], dictionary, bytewise (b 176 0xd6c3c4000001811f00081c00000201131c0000443d003d02002049206861766520736169642069742074776963653a0a5468617420616c6f6e652073686f756c6420656e636f75726167652074686520637265772e0a013d025900082c00000201232c5802052e0907000201016872a700000f09000901005768617420492074650a000802000102006c000200221b001b020020796f752074687265652074696d657320697320747275652e220a011b), .accepted true, .exactly (b 178 0x224a7573742074686520706c61636520666f72206120536e61726b212049206861766520736169642069742074776963653a0a5468617420616c6f6e652073686f756c6420656e636f75726167652074686520637265772e0a4a7573742074686520706c61636520666f72206120536e61726b21204920686176652073616964206974207468726963653a0a5768617420492074656c6c20796f752074687265652074696d657320697320747275652e220a)⟩ : Vector).check

/-! `VCDiffStandardWindowDecoderTestByteByByte.DecodeNoVcdTarget` -/
#guard (⟨[.setAllowTarget false], dictionary, bytewise (b 176 0xd6c3c4000001811f00081c00000201131c0000443d003d02002049206861766520736169642069742074776963653a0a5468617420616c6f6e652073686f756c6420656e636f75726167652074686520637265772e0a013d025900082c00000201232c5802052e0907000201016872a700000f09000901005768617420492074650a000802000102006c000200221b001b020020796f752074687265652074696d657320697320747275652e220a011b), .failsAt 88, .exactly (b 89 0x224a7573742074686520706c61636520666f72206120536e61726b212049206861766520736169642069742074776963653a0a5468617420616c6f6e652073686f756c6420656e636f75726167652074686520637265772e0a)⟩ : Vector).check

/-! `VCDiffInterleavedWindowDecoderTest.Decode` -/
#guard (⟨[], dictionary, [b 176 0xd6c3c4530001811f00081c00000300131c0000443d00003f00013d2049206861766520736169642069742074776963653a0a5468617420616c6f6e652073686f756c6420656e636f75726167652074686520637265772e0a025900082c00000300232c5802052e090700000400a7687200000f0900000a000a5768617420492074650008020000030000026c00221b00001d00011b20796f752074687265652074696d657320697320747275652e220a], .accepted true, .exactly (b 178 0x224a7573742074686520706c61636520666f72206120536e61726b212049206861766520736169642069742074776963653a0a5468617420616c6f6e652073686f756c6420656e636f75726167652074686520637265772e0a4a7573742074686520706c61636520666f72206120536e61726b21204920686176652073616964206974207468726963653a0a5768617420492074656c6c20796f752074687265652074696d657320697320747275652e220a)⟩ : Vector).check

/-! `VCDiffInterleavedWindowDecoderTestByteByByte.Decode` -/
#guard (⟨[], dictionary, bytewise (b 176 0xd6c3c4530001811f00081c00000300131c0000443d00003f00013d2049206861766520736169642069742074776963653a0a5468617420616c6f6e652073686f756c6420656e636f75726167652074686520637265772e0a025900082c00000300232c5802052e090700000400a7687200000f0900000a000a5768617420492074650008020000030000026c00221b00001d00011b20796f752074687265652074696d657320697320747275652e220a), .accepted true, .exactly (b 178 0x224a7573742074686520706c61636520666f72206120536e61726b212049206861766520736169642069742074776963653a0a5468617420616c6f6e652073686f756c6420656e636f75726167652074686520637265772e0a4a7573742074686520706c61636520666f72206120536e61726b21204920686176652073616964206974207468726963653a0a5768617420492074656c6c20796f752074687265652074696d657320697320747275652e220a)⟩ : Vector).check

/-! `VCDiffInterleavedWindowDecoderTestByteByByte.DecodeNoVcdTarget` -/
#guard (⟨[.setAllowTarget false], dictionary, bytewise (b 176 0xd6c3c4530001811f00081c00000300131c0000443d00003f00013d2049206861766520736169642069742074776963653a0a5468617420616c6f6e652073686f756c6420656e636f75726167652074686520637265772e0a025900082c00000300232c5802052e090700000400a7687200000f0900000a000a5768617420492074650008020000030000026c00221b00001d00011b20796f752074687265652074696d657320697320747275652e220a), .failsAt 88, .exactly (b 89 0x224a7573742074686520706c61636520666f72206120536e61726b212049206861766520736169642069742074776963653a0a5468617420616c6f6e652073686f756c6420656e636f75726167652074686520637265772e0a)⟩ : Vector).check

/-! `VCDiffStandardCrossDecoderTest.Decode` -/
#guard (⟨[], dictionary, [b 31 0xd6c3c4000001811f0015290007060353706964657273010723191425150614], .accepted true, .exactly (b 41 0x5370696465727320696e2068697320686169722e0a5370696465727320696e20746865206169722e0a)⟩ : Vector).check

/-! `VCDiffStandardCrossDecoderTestByteByByte.Decode` -/
#guard (⟨[], dictionary, bytewise (b 31 0xd6c3c4000001811f0015290007060353706964657273010723191425150614), .accepted true, .exactly (b 41 0x5370696465727320696e2068697320686169722e0a5370696465727320696e20746865206169722e0a)⟩ : Vector).check

/-! `VCDiffInterleavedCrossDecoderTest.Decode` -/
#guard (⟨[], dictionary, [b 31 0xd6c3c4530001811f0015290000100001075370696465727323191514062514], .accepted true, .exactly (b 41 0x5370696465727320696e2068697320686169722e0a5370696465727320696e20746865206169722e0a)⟩ : Vector).check

/-! `VCDiffInterleavedCrossDecoderTest.DecodeWithChecksum` -/
#guard (⟨[], dictionary, [b 36 0xd6c3c4530005811f001a29000010008388f89b7701075370696465727323191514062514], .accepted true, .exactly (b 41 0x5370696465727320696e2068697320686169722e0a5370696465727320696e20746865206169722e0a)⟩ : Vector).check

/-! `VCDiffInterleavedCrossDecoderTestByteByByte.Decode` -/
#guard (⟨[], dictionary, bytewise (b 31 0xd6c3c4530001811f0015290000100001075370696465727323191514062514), .accepted true, .exactly (b 41 0x5370696465727320696e2068697320686169722e0a5370696465727320696e20746865206169722e0a)⟩ : Vector).check

/-! `VCDiffInterleavedCrossDecoderTestByteByByte.DecodeWithChecksum` -/
#guard (⟨[], dictionary, bytewise (b 36 0xd6c3c4530005811f001a29000010008388f89b7701075370696465727323191514062514), .accepted true, .exactly (b 41 0x5370696465727320696e2068697320686169722e0a5370696465727320696e20746865206169722e0a)⟩ : Vector).check

/-! `VCDiffCustomCodeTableDecoderTest.DecodeUsingCustomCodeTable` -/
#guard (⟨[], dictionary, [b 169 0xd6c3c453020106d6c3c45300018c00001f8c0000001900050201010213840d04031b3d3f840f021c4f10022c53874d1001811f0074813200006e002200122049206861766520736169642069742074776963653a0a5468617420616c6f6e652073686f756c6420656e636f75726167652074686520637265772e0a3258bf68722d0a576861742049207465036c1120796f752074687265652074696d657320697320747275652e220a], .accepted true, .exactly (b 178 0x224a7573742074686520706c61636520666f72206120536e61726b212049206861766520736169642069742074776963653a0a5468617420616c6f6e652073686f756c6420656e636f75726167652074686520637265772e0a4a7573742074686520706c61636520666f72206120536e61726b21204920686176652073616964206974207468726963653a0a5768617420492074656c6c20796f752074687265652074696d657320697320747275652e220a)⟩ : Vector).check

/-! `VCDiffCustomCodeTableDecoderTest.IncompleteCustomCodeTable` -/
#guard (⟨[], dictionary, [b 47 0xd6c3c453020106d6c3c45300018c00001f8c0000001900050201010213840d04031b3d3f840f021c4f10022c53874d], .accepted false, .exactly (b 0 0)⟩ : Vector).check

/-! `VCDiffCustomCodeTableDecoderTestByteByByte.DecodeUsingCustomCodeTable` -/
#guard (⟨[], dictionary, bytewise (b 169 0xd6c3c453020106d6c3c45300018c00001f8c0000001900050201010213840d04031b3d3f840f021c4f10022c53874d1001811f0074813200006e002200122049206861766520736169642069742074776963653a0a5468617420616c6f6e652073686f756c6420656e636f75726167652074686520637265772e0a3258bf68722d0a576861742049207465036c1120796f752074687265652074696d657320697320747275652e220a), .accepted true, .exactly (b 178 0x224a7573742074686520706c61636520666f72206120536e61726b212049206861766520736169642069742074776963653a0a5468617420616c6f6e652073686f756c6420656e636f75726167652074686520637265772e0a4a7573742074686520706c61636520666f72206120536e61726b21204920686176652073616964206974207468726963653a0a5768617420492074656c6c20796f752074687265652074696d657320697320747275652e220a)⟩ : Vector).check

/-! `VCDiffCustomCodeTableDecoderTestByteByByte.IncompleteCustomCodeTable` -/
#guard (⟨[], dictionary, bytewise (b 47 0xd6c3c453020106d6c3c45300018c00001f8c0000001900050201010213840d04031b3d3f840f021c4f10022c53874d), .accepted false, .exactly (b 0 0)⟩ : Vector).check

/-! `VCDiffCustomCodeTableDecoderTestByteByByte.CustomTableNoVcdTarget` -/
#guard (⟨[.setAllowTarget false], dictionary, bytewise (b 169 0xd6c3c453020106d6c3c45300018c00001f8c0000001900050201010213840d04031b3d3f840f021c4f10022c53874d1001811f0074813200006e002200122049206861766520736169642069742074776963653a0a5468617420616c6f6e652073686f756c6420656e636f75726167652074686520637265772e0a3258bf68722d0a576861742049207465036c1120796f752074687265652074696d657320697320747275652e220a), .accepted true, .exactly (b 178 0x224a7573742074686520706c61636520666f72206120536e61726b212049206861766520736169642069742074776963653a0a5468617420616c6f6e652073686f756c6420656e636f75726167652074686520637265772e0a4a7573742074686520706c61636520666f72206120536e61726b21204920686176652073616964206974207468726963653a0a5768617420492074656c6c20796f752074687265652074696d657320697320747275652e220a)⟩ : Vector).check

/-! `VCDiffStandardWindowDecoderTest.DecodeBreakInFourthWindowHeader` -/
#guard (⟨[], dictionary, [b 88 0xd6c3c4000001811f00081c00000201131c0000443d003d02002049206861766520736169642069742074776963653a0a5468617420616c6f6e652073686f756c6420656e636f75726167652074686520637265772e0a013d, b 17 0x025900082c00000201232c5802052e0907, b 71 0x000201016872a700000f09000901005768617420492074650a000802000102006c000200221b001b020020796f752074687265652074696d657320697320747275652e220a011b], .accepted true, .exactly (b 178 0x224a7573742074686520706c61636520666f72206120536e61726b212049206861766520736169642069742074776963653a0a5468617420616c6f6e652073686f756c6420656e636f75726167652074686520637265772e0a4a7573742074686520706c61636520666f72206120536e61726b21204920686176652073616964206974207468726963653a0a5768617420492074656c6c20796f752074687265652074696d657320697320747275652e220a)⟩ : Vector).check

/-! `VCDiffStandardWindowDecoderTest.DecodeChunkNoVcdTargetAllowed` -/
#guard (⟨[.setAllowTarget false], dictionary, [b 88 0xd6c3c4000001811f00081c00000201131c0000443d003d02002049206861766520736169642069742074776963653a0a5468617420616c6f6e652073686f756c6420656e636f75726167652074686520637265772e0a013d, b 1 0x02], .failsAt 1, .exactly (b 89 0x224a7573742074686520706c61636520666f72206120536e61726b212049206861766520736169642069742074776963653a0a5468617420616c6f6e652073686f756c6420656e636f75726167652074686520637265772e0a)⟩ : Vector).check

/-! `VCDiffInterleavedWindowDecoderTest.OutputStringCanBeModified` -/
#guard (⟨[], dictionary, bytewise (b 176 0xd6c3c4530001811f00081c00000300131c0000443d00003f00013d2049206861766520736169642069742074776963653a0a5468617420616c6f6e652073686f756c6420656e636f75726167652074686520637265772e0a025900082c00000300232c5802052e090700000400a7687200000f0900000a000a5768617420492074650008020000030000026c00221b00001d00011b20796f752074687265652074696d657320697320747275652e220a), .accepted true, .exactly (b 178 0x224a7573742074686520706c61636520666f72206120536e61726b212049206861766520736169642069742074776963653a0a5468617420616c6f6e652073686f756c6420656e636f75726167652074686520637265772e0a4a7573742074686520706c61636520666f72206120536e61726b21204920686176652073616964206974207468726963653a0a5768617420492074656c6c20796f752074687265652074696d657320697320747275652e220a)⟩ : Vector).check

/-! `VCDiffCustomCacheSizeTest.BadCustomCacheSizes` -/
#guard (⟨[], dictionary, [b 171 0xd6c3c4530281108110d6c3c45300018c00001f8c0000001900050201010213840d04031b3d3f840f021c4f10022c53874d1001811f0074813200006e002200122049206861766520736169642069742074776963653a0a5468617420616c6f6e652073686f756c6420656e636f75726167652074686520637265772e0a3258bf68722d0a576861742049207465036c1120796f752074687265652074696d657320697320747275652e220a], .failsAt 0, .exactly (b 0 0)⟩ : Vector).check

/-! `VCDiffCustomCacheSizeTest.BadCustomCacheSizes` -/
#guard (⟨[], dictionary, [b 177 0xd6c3c4530287ffffff7f87ffffff7fd6c3c45300018c00001f8c0000001900050201010213840d04031b3d3f840f021c4f10022c53874d1001811f0074813200006e002200122049206861766520736169642069742074776963653a0a5468617420616c6f6e652073686f756c6420656e636f75726167652074686520637265772e0a3258bf68722d0a576861742049207465036c1120796f752074687265652074696d657320697320747275652e220a], .failsAt 0, .exactly (b 0 0)⟩ : Vector).check

/-! `VCDiffCustomCacheSizeTest.BadCustomCacheSizesNoVcdTarget` -/
#guard (⟨[.setAllowTarget false], dictionary, [b 171 0xd6c3c4530281108110d6c3c45300018c00001f8c0000001900050201010213840d04031b3d3f840f021c4f10022c53874d1001811f0074813200006e002200122049206861766520736169642069742074776963653a0a5468617420616c6f6e652073686f756c6420656e636f75726167652074686520637265772e0a3258bf68722d0a576861742049207465036c1120796f752074687265652074696d657320697320747275652e220a], .failsAt 0, .exactly (b 0 0)⟩ : Vector).check

/-! `VCDiffCustomCacheSizeTest.BadCustomCacheSizesNoVcdTarget` -/
#guard (⟨[.setAllowTarget false], dictionary, [b 177 0xd6c3c4530287ffffff7f87ffffff7fd6c3c45300018c00001f8c0000001900050201010213840d04031b3d3f840f021c4f10022c53874d1001811f0074813200006e002200122049206861766520736169642069742074776963653a0a5468617420616c6f6e652073686f756c6420656e636f75726167652074686520637265772e0a3258bf68722d0a576861742049207465036c1120796f752074687265652074696d657320697320747275652e220a], .failsAt 0, .exactly (b 0 0)⟩ : Vector).check

end Vcd.Vectors.Windows
