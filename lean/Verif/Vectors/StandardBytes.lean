import Verif.Vectors.Check

/-!
# The tests of src/vcdecoder2_test.cc as expectations on the model

Tests run when the module is compiled, not proofs. Left out: tests that place buffers next to unmapped pages. The tests
that alter or cut a file at every position are in `Verif.Vectors.Loops`.
-/

namespace Vcd.Vectors.StandardBytes

/-- `kDictionary` (src/vcdecoder_test.cc:41-44). -/
def dictionary : Bytes :=
  b 159 0x224a7573742074686520706c61636520666f72206120536e61726b2122207468652042656c6c6d616e2063726965642c0a4173206865206c616e646564206869732063726577207769746820636172653b0a537570706f7274696e672065616368206d616e206f6e2074686520746f70206f662074686520746964650a427920612066696e67657220656e7477696e656420696e2068697320686169722e0a

/-! `VCDiffStandardDecoderTestByteByByte.DecodeHeaderOnly` -/
#guard (⟨[], dictionary, bytewise (b 5 0xd6c3c40000), .accepted true, .exactly (b 0 0)⟩ : Vector).check

/-! `VCDiffStandardDecoderTestByteByByte.Decode` -/
#guard (⟨[], dictionary, bytewise (b 131 0xd6c3c4000001811f0079813200640c032049206861766520736169642069742074776963653a0a5468617420616c6f6e652073686f756c6420656e636f75726167652074686520637265772e0a68725768617420492074656c20796f752074687265652074696d657320697320747275652e220a131c013d232ccb0a0002011b00582d), .accepted true, .exactly (b 178 0x224a7573742074686520706c61636520666f72206120536e61726b212049206861766520736169642069742074776963653a0a5468617420616c6f6e652073686f756c6420656e636f75726167652074686520637265772e0a4a7573742074686520706c61636520666f72206120536e61726b21204920686176652073616964206974207468726963653a0a5768617420492074656c6c20796f752074687265652074696d657320697320747275652e220a)⟩ : Vector).check

/-! `VCDiffStandardDecoderTestByteByByte.DecodeNoVcdTarget` -/
#guard (⟨[.setAllowTarget false], dictionary, bytewise (b 131 0xd6c3c4000001811f0079813200640c032049206861766520736169642069742074776963653a0a5468617420616c6f6e652073686f756c6420656e636f75726167652074686520637265772e0a68725768617420492074656c20796f752074687265652074696d657320697320747275652e220a131c013d232ccb0a0002011b00582d), .accepted true, .exactly (b 178 0x224a7573742074686520706c61636520666f72206120536e61726b212049206861766520736169642069742074776963653a0a5468617420616c6f6e652073686f756c6420656e636f75726167652074686520637265772e0a4a7573742074686520706c61636520666f72206120536e61726b21204920686176652073616964206974207468726963653a0a5768617420492074656c6c20796f752074687265652074696d657320697320747275652e220a)⟩ : Vector).check

/-! `VCDiffStandardDecoderTestByteByByte.FinishAfterDecodingPartialWindow` -/
#guard (⟨[], dictionary, bytewise (b 130 0xd6c3c4000001811f0079813200640c032049206861766520736169642069742074776963653a0a5468617420616c6f6e652073686f756c6420656e636f75726167652074686520637265772e0a68725768617420492074656c20796f752074687265652074696d657320697320747275652e220a131c013d232ccb0a0002011b0058), .accepted false, .atMost 178⟩ : Vector).check

/-! `VCDiffStandardDecoderTestByteByByte.FinishAfterDecodingPartialWindowHeader` -/
#guard (⟨[], dictionary, bytewise (b 15 0xd6c3c4000001811f0079813200640c), .accepted false, .exactly (b 0 0)⟩ : Vector).check

/-! `VCDiffStandardDecoderTestByteByByte.StandardFormatDoesNotSupportChecksum` -/
#guard (⟨[], dictionary, bytewise (b 136 0xd6c3c4000005811f007e813200640c0384c4b8f9302049206861766520736169642069742074776963653a0a5468617420616c6f6e652073686f756c6420656e636f75726167652074686520637265772e0a68725768617420492074656c20796f752074687265652074696d657320697320747275652e220a131c013d232ccb0a0002011b00582d), .failsBy 135, .atMost 178⟩ : Vector).check

/-! `VCDiffStandardDecoderTestByteByByte.TargetMatchesWindowSizeLimit` -/
#guard (⟨[.setMaxWin 178], dictionary, bytewise (b 131 0xd6c3c4000001811f0079813200640c032049206861766520736169642069742074776963653a0a5468617420616c6f6e652073686f756c6420656e636f75726167652074686520637265772e0a68725768617420492074656c20796f752074687265652074696d657320697320747275652e220a131c013d232ccb0a0002011b00582d), .accepted true, .exactly (b 178 0x224a7573742074686520706c61636520666f72206120536e61726b212049206861766520736169642069742074776963653a0a5468617420616c6f6e652073686f756c6420656e636f75726167652074686520637265772e0a4a7573742074686520706c61636520666f72206120536e61726b21204920686176652073616964206974207468726963653a0a5768617420492074656c6c20796f752074687265652074696d657320697320747275652e220a)⟩ : Vector).check

/-! `VCDiffStandardDecoderTestByteByByte.TargetMatchesFileSizeLimit` -/
#guard (⟨[.setMaxFile 178], dictionary, bytewise (b 131 0xd6c3c4000001811f0079813200640c032049206861766520736169642069742074776963653a0a5468617420616c6f6e652073686f756c6420656e636f75726167652074686520637265772e0a68725768617420492074656c20796f752074687265652074696d657320697320747275652e220a131c013d232ccb0a0002011b00582d), .accepted true, .exactly (b 178 0x224a7573742074686520706c61636520666f72206120536e61726b212049206861766520736169642069742074776963653a0a5468617420616c6f6e652073686f756c6420656e636f75726167652074686520637265772e0a4a7573742074686520706c61636520666f72206120536e61726b21204920686176652073616964206974207468726963653a0a5768617420492074656c6c20796f752074687265652074696d657320697320747275652e220a)⟩ : Vector).check

/-! `VCDiffStandardDecoderTestByteByByte.TargetExceedsWindowSizeLimit` -/
#guard (⟨[.setMaxWin 177], dictionary, bytewise (b 131 0xd6c3c4000001811f0079813200640c032049206861766520736169642069742074776963653a0a5468617420616c6f6e652073686f756c6420656e636f75726167652074686520637265772e0a68725768617420492074656c20796f752074687265652074696d657320697320747275652e220a131c013d232ccb0a0002011b00582d), .failsBy 130, .exactly (b 0 0)⟩ : Vector).check

/-! `VCDiffStandardDecoderTestByteByByte.TargetExceedsFileSizeLimit` -/
#guard (⟨[.setMaxFile 177], dictionary, bytewise (b 131 0xd6c3c4000001811f0079813200640c032049206861766520736169642069742074776963653a0a5468617420616c6f6e652073686f756c6420656e636f75726167652074686520637265772e0a68725768617420492074656c20796f752074687265652074696d657320697320747275652e220a131c013d232ccb0a0002011b00582d), .failsBy 130, .exactly (b 0 0)⟩ : Vector).check

/-! `VCDiffStandardDecoderTestByteByByte.WinIndicatorHasBothSourceAndTarget` -/
#guard (⟨[], dictionary, bytewise (b 131 0xd6c3c4000003811f0079813200640c032049206861766520736169642069742074776963653a0a5468617420616c6f6e652073686f756c6420656e636f75726167652074686520637265772e0a68725768617420492074656c20796f752074687265652074696d657320697320747275652e220a131c013d232ccb0a0002011b00582d), .failsAt 5, .exactly (b 0 0)⟩ : Vector).check

/-! `VCDiffStandardDecoderTestByteByByte.OkayToSetUpperBitsOfWinIndicator` -/
#guard (⟨[], dictionary, bytewise (b 131 0xd6c3c40000fd811f0079813200640c032049206861766520736169642069742074776963653a0a5468617420616c6f6e652073686f756c6420656e636f75726167652074686520637265772e0a68725768617420492074656c20796f752074687265652074696d657320697320747275652e220a131c013d232ccb0a0002011b00582d), .accepted true, .exactly (b 178 0x224a7573742074686520706c61636520666f72206120536e61726b212049206861766520736169642069742074776963653a0a5468617420616c6f6e652073686f756c6420656e636f75726167652074686520637265772e0a4a7573742074686520706c61636520666f72206120536e61726b21204920686176652073616964206974207468726963653a0a5768617420492074656c6c20796f752074687265652074696d657320697320747275652e220a)⟩ : Vector).check

/-! `VCDiffStandardDecoderTestByteByByte.CopyInstructionsShouldFailIfNoSourceSegment` -/
#guard (⟨[], dictionary, bytewise (b 128 0xd6c3c400000079813200640c032049206861766520736169642069742074776963653a0a5468617420616c6f6e652073686f756c6420656e636f75726167652074686520637265772e0a68725768617420492074656c20796f752074687265652074696d657320697320747275652e220a131c013d232ccb0a0002011b00582d), .failsBy 127, .exactly (b 0 0)⟩ : Vector).check

/-! `VCDiffStandardDecoderTestByteByByte.SourceSegmentSizeExceedsDictionarySize` -/
#guard (⟨[], dictionary, bytewise (b 131 0xd6c3c400000181200079813200640c032049206861766520736169642069742074776963653a0a5468617420616c6f6e652073686f756c6420656e636f75726167652074686520637265772e0a68725768617420492074656c20796f752074687265652074696d657320697320747275652e220a131c013d232ccb0a0002011b00582d), .failsAt 7, .exactly (b 0 0)⟩ : Vector).check

/-! `VCDiffStandardDecoderTestByteByByte.SourceSegmentSizeMaxInt` -/
#guard (⟨[], dictionary, bytewise (b 134 0xd6c3c400000187ffffff7f0079813200640c032049206861766520736169642069742074776963653a0a5468617420616c6f6e652073686f756c6420656e636f75726167652074686520637265772e0a68725768617420492074656c20796f752074687265652074696d657320697320747275652e220a131c013d232ccb0a0002011b00582d), .failsAt 10, .exactly (b 0 0)⟩ : Vector).check

/-! `VCDiffStandardDecoderTestByteByByte.SourceSegmentSizeNegative` -/
#guard (⟨[], dictionary, bytewise (b 134 0xd6c3c400000188808080000079813200640c032049206861766520736169642069742074776963653a0a5468617420616c6f6e652073686f756c6420656e636f75726167652074686520637265772e0a68725768617420492074656c20796f752074687265652074696d657320697320747275652e220a131c013d232ccb0a0002011b00582d), .failsAt 9, .exactly (b 0 0)⟩ : Vector).check

/-! `VCDiffStandardDecoderTestByteByByte.SourceSegmentSizeInvalid` -/
#guard (⟨[], dictionary, bytewise (b 135 0xd6c3c400000187ffffffff7f0079813200640c032049206861766520736169642069742074776963653a0a5468617420616c6f6e652073686f756c6420656e636f75726167652074686520637265772e0a68725768617420492074656c20796f752074687265652074696d657320697320747275652e220a131c013d232ccb0a0002011b00582d), .failsBy 11, .exactly (b 0 0)⟩ : Vector).check

/-! `VCDiffStandardDecoderTestByteByByte.SourceSegmentEndExceedsDictionarySize` -/
#guard (⟨[], dictionary, bytewise (b 131 0xd6c3c4000001811f0179813200640c032049206861766520736169642069742074776963653a0a5468617420616c6f6e652073686f756c6420656e636f75726167652074686520637265772e0a68725768617420492074656c20796f752074687265652074696d657320697320747275652e220a131c013d232ccb0a0002011b00582d), .failsAt 8, .exactly (b 0 0)⟩ : Vector).check

/-! `VCDiffStandardDecoderTestByteByByte.SourceSegmentPosMaxInt` -/
#guard (⟨[], dictionary, bytewise (b 135 0xd6c3c4000001811f87ffffff7f79813200640c032049206861766520736169642069742074776963653a0a5468617420616c6f6e652073686f756c6420656e636f75726167652074686520637265772e0a68725768617420492074656c20796f752074687265652074696d657320697320747275652e220a131c013d232ccb0a0002011b00582d), .failsAt 12, .exactly (b 0 0)⟩ : Vector).check

/-! `VCDiffStandardDecoderTestByteByByte.SourceSegmentPosNegative` -/
#guard (⟨[], dictionary, bytewise (b 135 0xd6c3c4000001811f888080800079813200640c032049206861766520736169642069742074776963653a0a5468617420616c6f6e652073686f756c6420656e636f75726167652074686520637265772e0a68725768617420492074656c20796f752074687265652074696d657320697320747275652e220a131c013d232ccb0a0002011b00582d), .failsAt 11, .exactly (b 0 0)⟩ : Vector).check

/-! `VCDiffStandardDecoderTestByteByByte.SourceSegmentPosInvalid` -/
#guard (⟨[], dictionary, bytewise (b 136 0xd6c3c4000001811f87ffffffff7f79813200640c032049206861766520736169642069742074776963653a0a5468617420616c6f6e652073686f756c6420656e636f75726167652074686520637265772e0a68725768617420492074656c20796f752074687265652074696d657320697320747275652e220a131c013d232ccb0a0002011b00582d), .failsBy 13, .exactly (b 0 0)⟩ : Vector).check

/-! `VCDiffStandardDecoderTestByteByByte.DeltaEncodingLengthZero` -/
#guard (⟨[], dictionary, bytewise (b 131 0xd6c3c4000001811f0000813200640c032049206861766520736169642069742074776963653a0a5468617420616c6f6e652073686f756c6420656e636f75726167652074686520637265772e0a68725768617420492074656c20796f752074687265652074696d657320697320747275652e220a131c013d232ccb0a0002011b00582d), .failsAt 15, .exactly (b 0 0)⟩ : Vector).check

/-! `VCDiffStandardDecoderTestByteByByte.DeltaEncodingLengthTooLargeByOne` -/
#guard (⟨[], dictionary, bytewise (b 131 0xd6c3c4000001811f007a813200640c032049206861766520736169642069742074776963653a0a5468617420616c6f6e652073686f756c6420656e636f75726167652074686520637265772e0a68725768617420492074656c20796f752074687265652074696d657320697320747275652e220a131c013d232ccb0a0002011b00582d), .failsAt 15, .exactly (b 0 0)⟩ : Vector).check

/-! `VCDiffStandardDecoderTestByteByByte.DeltaEncodingLengthTooSmallByOne` -/
#guard (⟨[], dictionary, bytewise (b 131 0xd6c3c4000001811f0078813200640c032049206861766520736169642069742074776963653a0a5468617420616c6f6e652073686f756c6420656e636f75726167652074686520637265772e0a68725768617420492074656c20796f752074687265652074696d657320697320747275652e220a131c013d232ccb0a0002011b00582d), .failsAt 15, .exactly (b 0 0)⟩ : Vector).check

/-! `VCDiffStandardDecoderTestByteByByte.DeltaEncodingLengthMaxInt` -/
#guard (⟨[], dictionary, bytewise (b 135 0xd6c3c4000001811f0087ffffff7f813200640c032049206861766520736169642069742074776963653a0a5468617420616c6f6e652073686f756c6420656e636f75726167652074686520637265772e0a68725768617420492074656c20796f752074687265652074696d657320697320747275652e220a131c013d232ccb0a0002011b00582d), .failsBy 20, .exactly (b 0 0)⟩ : Vector).check

/-! `VCDiffStandardDecoderTestByteByByte.DeltaEncodingLengthNegative` -/
#guard (⟨[], dictionary, bytewise (b 135 0xd6c3c4000001811f008880808000813200640c032049206861766520736169642069742074776963653a0a5468617420616c6f6e652073686f756c6420656e636f75726167652074686520637265772e0a68725768617420492074656c20796f752074687265652074696d657320697320747275652e220a131c013d232ccb0a0002011b00582d), .failsAt 12, .exactly (b 0 0)⟩ : Vector).check

/-! `VCDiffStandardDecoderTestByteByByte.DeltaEncodingLengthInvalid` -/
#guard (⟨[], dictionary, bytewise (b 136 0xd6c3c4000001811f0087ffffffff7f813200640c032049206861766520736169642069742074776963653a0a5468617420616c6f6e652073686f756c6420656e636f75726167652074686520637265772e0a68725768617420492074656c20796f752074687265652074696d657320697320747275652e220a131c013d232ccb0a0002011b00582d), .failsBy 14, .exactly (b 0 0)⟩ : Vector).check

/-! `VCDiffStandardDecoderTestByteByByte.TargetWindowSizeZero` -/
#guard (⟨[], dictionary, bytewise (b 130 0xd6c3c4000001811f00790000640c032049206861766520736169642069742074776963653a0a5468617420616c6f6e652073686f756c6420656e636f75726167652074686520637265772e0a68725768617420492074656c20796f752074687265652074696d657320697320747275652e220a131c013d232ccb0a0002011b00582d), .failsBy 129, .exactly (b 0 0)⟩ : Vector).check

/-! `VCDiffStandardDecoderTestByteByByte.TargetWindowSizeTooLargeByOne` -/
#guard (⟨[], dictionary, bytewise (b 131 0xd6c3c4000001811f0079813300640c032049206861766520736169642069742074776963653a0a5468617420616c6f6e652073686f756c6420656e636f75726167652074686520637265772e0a68725768617420492074656c20796f752074687265652074696d657320697320747275652e220a131c013d232ccb0a0002011b00582d), .failsBy 130, .atMost 178⟩ : Vector).check

/-! `VCDiffStandardDecoderTestByteByByte.TargetWindowSizeTooSmallByOne` -/
#guard (⟨[], dictionary, bytewise (b 131 0xd6c3c4000001811f0079813100640c032049206861766520736169642069742074776963653a0a5468617420616c6f6e652073686f756c6420656e636f75726167652074686520637265772e0a68725768617420492074656c20796f752074687265652074696d657320697320747275652e220a131c013d232ccb0a0002011b00582d), .failsBy 130, .atMost 178⟩ : Vector).check

/-! `VCDiffStandardDecoderTestByteByByte.TargetWindowSizeMaxInt` -/
#guard (⟨[], dictionary, bytewise (b 134 0xd6c3c4000001811f007987ffffff7f00640c032049206861766520736169642069742074776963653a0a5468617420616c6f6e652073686f756c6420656e636f75726167652074686520637265772e0a68725768617420492074656c20796f752074687265652074696d657320697320747275652e220a131c013d232ccb0a0002011b00582d), .failsAt 14, .exactly (b 0 0)⟩ : Vector).check

/-! `VCDiffStandardDecoderTestByteByByte.TargetWindowSizeNegative` -/
#guard (⟨[], dictionary, bytewise (b 134 0xd6c3c4000001811f0079888080800000640c032049206861766520736169642069742074776963653a0a5468617420616c6f6e652073686f756c6420656e636f75726167652074686520637265772e0a68725768617420492074656c20796f752074687265652074696d657320697320747275652e220a131c013d232ccb0a0002011b00582d), .failsAt 13, .exactly (b 0 0)⟩ : Vector).check

/-! `VCDiffStandardDecoderTestByteByByte.TargetWindowSizeInvalid` -/
#guard (⟨[], dictionary, bytewise (b 135 0xd6c3c4000001811f007987ffffffff7f00640c032049206861766520736169642069742074776963653a0a5468617420616c6f6e652073686f756c6420656e636f75726167652074686520637265772e0a68725768617420492074656c20796f752074687265652074696d657320697320747275652e220a131c013d232ccb0a0002011b00582d), .failsBy 15, .exactly (b 0 0)⟩ : Vector).check

/-! `VCDiffStandardDecoderTestByteByByte.OkayToSetUpperBitsOfDeltaIndicator` -/
#guard (⟨[], dictionary, bytewise (b 131 0xd6c3c4000001811f00798132f8640c032049206861766520736169642069742074776963653a0a5468617420616c6f6e652073686f756c6420656e636f75726167652074686520637265772e0a68725768617420492074656c20796f752074687265652074696d657320697320747275652e220a131c013d232ccb0a0002011b00582d), .accepted true, .exactly (b 178 0x224a7573742074686520706c61636520666f72206120536e61726b212049206861766520736169642069742074776963653a0a5468617420616c6f6e652073686f756c6420656e636f75726167652074686520637265772e0a4a7573742074686520706c61636520666f72206120536e61726b21204920686176652073616964206974207468726963653a0a5768617420492074656c6c20796f752074687265652074696d657320697320747275652e220a)⟩ : Vector).check

/-! `VCDiffStandardDecoderTestByteByByte.DataCompressionNotSupported` -/
#guard (⟨[], dictionary, bytewise (b 131 0xd6c3c4000001811f0079813201640c032049206861766520736169642069742074776963653a0a5468617420616c6f6e652073686f756c6420656e636f75726167652074686520637265772e0a68725768617420492074656c20796f752074687265652074696d657320697320747275652e220a131c013d232ccb0a0002011b00582d), .failsAt 12, .exactly (b 0 0)⟩ : Vector).check

/-! `VCDiffStandardDecoderTestByteByByte.InstructionCompressionNotSupported` -/
#guard (⟨[], dictionary, bytewise (b 131 0xd6c3c4000001811f0079813202640c032049206861766520736169642069742074776963653a0a5468617420616c6f6e652073686f756c6420656e636f75726167652074686520637265772e0a68725768617420492074656c20796f752074687265652074696d657320697320747275652e220a131c013d232ccb0a0002011b00582d), .failsAt 12, .exactly (b 0 0)⟩ : Vector).check

/-! `VCDiffStandardDecoderTestByteByByte.AddressCompressionNotSupported` -/
#guard (⟨[], dictionary, bytewise (b 131 0xd6c3c4000001811f0079813204640c032049206861766520736169642069742074776963653a0a5468617420616c6f6e652073686f756c6420656e636f75726167652074686520637265772e0a68725768617420492074656c20796f752074687265652074696d657320697320747275652e220a131c013d232ccb0a0002011b00582d), .failsAt 12, .exactly (b 0 0)⟩ : Vector).check

/-! `VCDiffStandardDecoderTestByteByByte.AddRunDataSizeZero` -/
#guard (⟨[], dictionary, bytewise (b 131 0xd6c3c4000001811f0079813200000c032049206861766520736169642069742074776963653a0a5468617420616c6f6e652073686f756c6420656e636f75726167652074686520637265772e0a68725768617420492074656c20796f752074687265652074696d657320697320747275652e220a131c013d232ccb0a0002011b00582d), .failsAt 15, .exactly (b 0 0)⟩ : Vector).check

/-! `VCDiffStandardDecoderTestByteByByte.AddRunDataSizeTooLargeByOne` -/
#guard (⟨[], dictionary, bytewise (b 131 0xd6c3c4000001811f0079813200650c032049206861766520736169642069742074776963653a0a5468617420616c6f6e652073686f756c6420656e636f75726167652074686520637265772e0a68725768617420492074656c20796f752074687265652074696d657320697320747275652e220a131c013d232ccb0a0002011b00582d), .failsAt 15, .exactly (b 0 0)⟩ : Vector).check

/-! `VCDiffStandardDecoderTestByteByByte.AddRunDataSizeTooSmallByOne` -/
#guard (⟨[], dictionary, bytewise (b 131 0xd6c3c4000001811f0079813200630c032049206861766520736169642069742074776963653a0a5468617420616c6f6e652073686f756c6420656e636f75726167652074686520637265772e0a68725768617420492074656c20796f752074687265652074696d657320697320747275652e220a131c013d232ccb0a0002011b00582d), .failsAt 15, .exactly (b 0 0)⟩ : Vector).check

/-! `VCDiffStandardDecoderTestByteByByte.AddRunDataSizeMaxInt` -/
#guard (⟨[], dictionary, bytewise (b 135 0xd6c3c4000001811f007981320087ffffff7f0c032049206861766520736169642069742074776963653a0a5468617420616c6f6e652073686f756c6420656e636f75726167652074686520637265772e0a68725768617420492074656c20796f752074687265652074696d657320697320747275652e220a131c013d232ccb0a0002011b00582d), .failsBy 20, .exactly (b 0 0)⟩ : Vector).check

/-! `VCDiffStandardDecoderTestByteByByte.AddRunDataSizeNegative` -/
#guard (⟨[], dictionary, bytewise (b 135 0xd6c3c4000001811f007981320088808080000c032049206861766520736169642069742074776963653a0a5468617420616c6f6e652073686f756c6420656e636f75726167652074686520637265772e0a68725768617420492074656c20796f752074687265652074696d657320697320747275652e220a131c013d232ccb0a0002011b00582d), .failsAt 16, .exactly (b 0 0)⟩ : Vector).check

/-! `VCDiffStandardDecoderTestByteByByte.AddRunDataSizeInvalid` -/
#guard (⟨[], dictionary, bytewise (b 136 0xd6c3c4000001811f007981320087ffffffff7f0c032049206861766520736169642069742074776963653a0a5468617420616c6f6e652073686f756c6420656e636f75726167652074686520637265772e0a68725768617420492074656c20796f752074687265652074696d657320697320747275652e220a131c013d232ccb0a0002011b00582d), .failsBy 18, .exactly (b 0 0)⟩ : Vector).check

/-! `VCDiffStandardDecoderTestByteByByte.InstructionsSizeZero` -/
#guard (⟨[], dictionary, bytewise (b 131 0xd6c3c4000001811f00798132006400032049206861766520736169642069742074776963653a0a5468617420616c6f6e652073686f756c6420656e636f75726167652074686520637265772e0a68725768617420492074656c20796f752074687265652074696d657320697320747275652e220a131c013d232ccb0a0002011b00582d), .failsAt 15, .exactly (b 0 0)⟩ : Vector).check

/-! `VCDiffStandardDecoderTestByteByByte.InstructionsSizeTooLargeByOne` -/
#guard (⟨[], dictionary, bytewise (b 131 0xd6c3c4000001811f0079813200640d032049206861766520736169642069742074776963653a0a5468617420616c6f6e652073686f756c6420656e636f75726167652074686520637265772e0a68725768617420492074656c20796f752074687265652074696d657320697320747275652e220a131c013d232ccb0a0002011b00582d), .failsAt 15, .exactly (b 0 0)⟩ : Vector).check

/-! `VCDiffStandardDecoderTestByteByByte.InstructionsSizeTooSmallByOne` -/
#guard (⟨[], dictionary, bytewise (b 131 0xd6c3c4000001811f0079813200640b032049206861766520736169642069742074776963653a0a5468617420616c6f6e652073686f756c6420656e636f75726167652074686520637265772e0a68725768617420492074656c20796f752074687265652074696d657320697320747275652e220a131c013d232ccb0a0002011b00582d), .failsAt 15, .exactly (b 0 0)⟩ : Vector).check

/-! `VCDiffStandardDecoderTestByteByByte.InstructionsSizeMaxInt` -/
#guard (⟨[], dictionary, bytewise (b 135 0xd6c3c4000001811f00798132006487ffffff7f032049206861766520736169642069742074776963653a0a5468617420616c6f6e652073686f756c6420656e636f75726167652074686520637265772e0a68725768617420492074656c20796f752074687265652074696d657320697320747275652e220a131c013d232ccb0a0002011b00582d), .failsBy 20, .exactly (b 0 0)⟩ : Vector).check

/-! `VCDiffStandardDecoderTestByteByByte.InstructionsSizeNegative` -/
#guard (⟨[], dictionary, bytewise (b 135 0xd6c3c4000001811f0079813200648880808000032049206861766520736169642069742074776963653a0a5468617420616c6f6e652073686f756c6420656e636f75726167652074686520637265772e0a68725768617420492074656c20796f752074687265652074696d657320697320747275652e220a131c013d232ccb0a0002011b00582d), .failsAt 17, .exactly (b 0 0)⟩ : Vector).check

/-! `VCDiffStandardDecoderTestByteByByte.InstructionsSizeInvalid` -/
#guard (⟨[], dictionary, bytewise (b 136 0xd6c3c4000001811f00798132006487ffffffff7f032049206861766520736169642069742074776963653a0a5468617420616c6f6e652073686f756c6420656e636f75726167652074686520637265772e0a68725768617420492074656c20796f752074687265652074696d657320697320747275652e220a131c013d232ccb0a0002011b00582d), .failsBy 19, .exactly (b 0 0)⟩ : Vector).check

/-! `VCDiffStandardDecoderTestByteByByte.CopyAddressSizeZero` -/
#guard (⟨[], dictionary, bytewise (b 131 0xd6c3c4000001811f0079813200640c002049206861766520736169642069742074776963653a0a5468617420616c6f6e652073686f756c6420656e636f75726167652074686520637265772e0a68725768617420492074656c20796f752074687265652074696d657320697320747275652e220a131c013d232ccb0a0002011b00582d), .failsAt 15, .exactly (b 0 0)⟩ : Vector).check

/-! `VCDiffStandardDecoderTestByteByByte.CopyAddressSizeTooLargeByOne` -/
#guard (⟨[], dictionary, bytewise (b 131 0xd6c3c4000001811f0079813200640c042049206861766520736169642069742074776963653a0a5468617420616c6f6e652073686f756c6420656e636f75726167652074686520637265772e0a68725768617420492074656c20796f752074687265652074696d657320697320747275652e220a131c013d232ccb0a0002011b00582d), .failsAt 15, .exactly (b 0 0)⟩ : Vector).check

/-! `VCDiffStandardDecoderTestByteByByte.CopyAddressSizeTooSmallByOne` -/
#guard (⟨[], dictionary, bytewise (b 131 0xd6c3c4000001811f0079813200640c022049206861766520736169642069742074776963653a0a5468617420616c6f6e652073686f756c6420656e636f75726167652074686520637265772e0a68725768617420492074656c20796f752074687265652074696d657320697320747275652e220a131c013d232ccb0a0002011b00582d), .failsAt 15, .exactly (b 0 0)⟩ : Vector).check

/-! `VCDiffStandardDecoderTestByteByByte.CopyAddressSizeMaxInt` -/
#guard (⟨[], dictionary, bytewise (b 135 0xd6c3c4000001811f0079813200640c87ffffff7f2049206861766520736169642069742074776963653a0a5468617420616c6f6e652073686f756c6420656e636f75726167652074686520637265772e0a68725768617420492074656c20796f752074687265652074696d657320697320747275652e220a131c013d232ccb0a0002011b00582d), .failsAt 19, .exactly (b 0 0)⟩ : Vector).check

/-! `VCDiffStandardDecoderTestByteByByte.CopyAddressSizeNegative` -/
#guard (⟨[], dictionary, bytewise (b 135 0xd6c3c4000001811f0079813200640c88808080002049206861766520736169642069742074776963653a0a5468617420616c6f6e652073686f756c6420656e636f75726167652074686520637265772e0a68725768617420492074656c20796f752074687265652074696d657320697320747275652e220a131c013d232ccb0a0002011b00582d), .failsAt 18, .exactly (b 0 0)⟩ : Vector).check

/-! `VCDiffStandardDecoderTestByteByByte.CopyAddressSizeInvalid` -/
#guard (⟨[], dictionary, bytewise (b 136 0xd6c3c4000001811f0079813200640c87ffffffff7f2049206861766520736169642069742074776963653a0a5468617420616c6f6e652073686f756c6420656e636f75726167652074686520637265772e0a68725768617420492074656c20796f752074687265652074696d657320697320747275652e220a131c013d232ccb0a0002011b00582d), .failsBy 20, .exactly (b 0 0)⟩ : Vector).check

/-! `VCDiffStandardDecoderTestByteByByte.InstructionsEndEarly` -/
#guard (⟨[], dictionary, bytewise (b 131 0xd6c3c4000001811f0079813200640b042049206861766520736169642069742074776963653a0a5468617420616c6f6e652073686f756c6420656e636f75726167652074686520637265772e0a68725768617420492074656c20796f752074687265652074696d657320697320747275652e220a131c013d232ccb0a0002011b00582d), .failsBy 130, .atMost 178⟩ : Vector).check

/-! `VCDiffStandardDecoderTestByteByByte.CopyMoreThanExpectedTarget` -/
#guard (⟨[], dictionary, bytewise (b 131 0xd6c3c4000001811f0079813200640c032049206861766520736169642069742074776963653a0a5468617420616c6f6e652073686f756c6420656e636f75726167652074686520637265772e0a68725768617420492074656c20796f752074687265652074696d657320697320747275652e220a1381333d232ccb0a0002011b00582d), .failsBy 130, .atMost 178⟩ : Vector).check

/-! `VCDiffStandardDecoderTestByteByByte.CopySizeZero` -/
#guard (⟨[], dictionary, bytewise (b 131 0xd6c3c4000001811f0079813200640c032049206861766520736169642069742074776963653a0a5468617420616c6f6e652073686f756c6420656e636f75726167652074686520637265772e0a68725768617420492074656c20796f752074687265652074696d657320697320747275652e220a1300013d232ccb0a0002011b00582d), .failsBy 130, .atMost 178⟩ : Vector).check

/-! `VCDiffStandardDecoderTestByteByByte.CopySizeTooLargeByOne` -/
#guard (⟨[], dictionary, bytewise (b 131 0xd6c3c4000001811f0079813200640c032049206861766520736169642069742074776963653a0a5468617420616c6f6e652073686f756c6420656e636f75726167652074686520637265772e0a68725768617420492074656c20796f752074687265652074696d657320697320747275652e220a131d013d232ccb0a0002011b00582d), .failsBy 130, .atMost 178⟩ : Vector).check

/-! `VCDiffStandardDecoderTestByteByByte.CopySizeTooSmallByOne` -/
#guard (⟨[], dictionary, bytewise (b 131 0xd6c3c4000001811f0079813200640c032049206861766520736169642069742074776963653a0a5468617420616c6f6e652073686f756c6420656e636f75726167652074686520637265772e0a68725768617420492074656c20796f752074687265652074696d657320697320747275652e220a131b013d232ccb0a0002011b00582d), .failsBy 130, .atMost 178⟩ : Vector).check

/-! `VCDiffStandardDecoderTestByteByByte.CopySizeMaxInt` -/
#guard (⟨[], dictionary, bytewise (b 135 0xd6c3c4000001811f0079813200640c032049206861766520736169642069742074776963653a0a5468617420616c6f6e652073686f756c6420656e636f75726167652074686520637265772e0a68725768617420492074656c20796f752074687265652074696d657320697320747275652e220a1387ffffff7f013d232ccb0a0002011b00582d), .failsBy 134, .atMost 178⟩ : Vector).check

/-! `VCDiffStandardDecoderTestByteByByte.CopySizeNegative` -/
#guard (⟨[], dictionary, bytewise (b 135 0xd6c3c4000001811f0079813200640c032049206861766520736169642069742074776963653a0a5468617420616c6f6e652073686f756c6420656e636f75726167652074686520637265772e0a68725768617420492074656c20796f752074687265652074696d657320697320747275652e220a138880808000013d232ccb0a0002011b00582d), .failsBy 134, .atMost 178⟩ : Vector).check

/-! `VCDiffStandardDecoderTestByteByByte.CopySizeInvalid` -/
#guard (⟨[], dictionary, bytewise (b 136 0xd6c3c4000001811f0079813200640c032049206861766520736169642069742074776963653a0a5468617420616c6f6e652073686f756c6420656e636f75726167652074686520637265772e0a68725768617420492074656c20796f752074687265652074696d657320697320747275652e220a1387ffffffff7f013d232ccb0a0002011b00582d), .failsBy 135, .atMost 178⟩ : Vector).check

/-! `VCDiffStandardDecoderTestByteByByte.CopyAddressBeyondHereAddress` -/
#guard (⟨[], dictionary, bytewise (b 131 0xd6c3c4000001811f0079813200640c032049206861766520736169642069742074776963653a0a5468617420616c6f6e652073686f756c6420656e636f75726167652074686520637265772e0a68725768617420492074656c20796f752074687265652074696d657320697320747275652e220a131c013d232ccb0a0002011b811f2d), .failsBy 130, .atMost 178⟩ : Vector).check

/-! `VCDiffStandardDecoderTestByteByByte.CopyAddressMaxInt` -/
#guard (⟨[], dictionary, bytewise (b 135 0xd6c3c4000001811f0079813200640c032049206861766520736169642069742074776963653a0a5468617420616c6f6e652073686f756c6420656e636f75726167652074686520637265772e0a68725768617420492074656c20796f752074687265652074696d657320697320747275652e220a131c013d232ccb0a0002011b87ffffff7f582d), .failsBy 134, .atMost 178⟩ : Vector).check

/-! `VCDiffStandardDecoderTestByteByByte.CopyAddressNegative` -/
#guard (⟨[], dictionary, bytewise (b 135 0xd6c3c4000001811f0079813200640c032049206861766520736169642069742074776963653a0a5468617420616c6f6e652073686f756c6420656e636f75726167652074686520637265772e0a68725768617420492074656c20796f752074687265652074696d657320697320747275652e220a138880808000013d232ccb0a0002011b00582d), .failsBy 134, .atMost 178⟩ : Vector).check

/-! `VCDiffStandardDecoderTestByteByByte.CopyAddressInvalid` -/
#guard (⟨[], dictionary, bytewise (b 136 0xd6c3c4000001811f0079813200640c032049206861766520736169642069742074776963653a0a5468617420616c6f6e652073686f756c6420656e636f75726167652074686520637265772e0a68725768617420492074656c20796f752074687265652074696d657320697320747275652e220a1387ffffffff7f013d232ccb0a0002011b00582d), .failsBy 135, .atMost 178⟩ : Vector).check

/-! `VCDiffStandardDecoderTestByteByByte.AddMoreThanExpectedTarget` -/
#guard (⟨[], dictionary, bytewise (b 131 0xd6c3c4000001811f0079813200640c032049206861766520736169642069742074776963653a0a5468617420616c6f6e652073686f756c6420656e636f75726167652074686520637265772e0a68725768617420492074656c20796f752074687265652074696d657320697320747275652e220a131c0181332ccb0a0002011b00582d), .failsBy 130, .atMost 178⟩ : Vector).check

/-! `VCDiffStandardDecoderTestByteByByte.AddSizeZero` -/
#guard (⟨[], dictionary, bytewise (b 131 0xd6c3c4000001811f0079813200640c032049206861766520736169642069742074776963653a0a5468617420616c6f6e652073686f756c6420656e636f75726167652074686520637265772e0a68725768617420492074656c20796f752074687265652074696d657320697320747275652e220a131c0100232ccb0a0002011b00582d), .failsBy 130, .atMost 178⟩ : Vector).check

/-! `VCDiffStandardDecoderTestByteByByte.AddSizeTooLargeByOne` -/
#guard (⟨[], dictionary, bytewise (b 131 0xd6c3c4000001811f0079813200640c032049206861766520736169642069742074776963653a0a5468617420616c6f6e652073686f756c6420656e636f75726167652074686520637265772e0a68725768617420492074656c20796f752074687265652074696d657320697320747275652e220a131c013e232ccb0a0002011b00582d), .failsBy 130, .atMost 178⟩ : Vector).check

/-! `VCDiffStandardDecoderTestByteByByte.AddSizeTooSmallByOne` -/
#guard (⟨[], dictionary, bytewise (b 131 0xd6c3c4000001811f0079813200640c032049206861766520736169642069742074776963653a0a5468617420616c6f6e652073686f756c6420656e636f75726167652074686520637265772e0a68725768617420492074656c20796f752074687265652074696d657320697320747275652e220a131c013c232ccb0a0002011b00582d), .failsBy 130, .atMost 178⟩ : Vector).check

/-! `VCDiffStandardDecoderTestByteByByte.AddSizeMaxInt` -/
#guard (⟨[], dictionary, bytewise (b 135 0xd6c3c4000001811f0079813200640c032049206861766520736169642069742074776963653a0a5468617420616c6f6e652073686f756c6420656e636f75726167652074686520637265772e0a68725768617420492074656c20796f752074687265652074696d657320697320747275652e220a131c0187ffffff7f232ccb0a0002011b00582d), .failsBy 134, .atMost 178⟩ : Vector).check

/-! `VCDiffStandardDecoderTestByteByByte.AddSizeNegative` -/
#guard (⟨[], dictionary, bytewise (b 135 0xd6c3c4000001811f0079813200640c032049206861766520736169642069742074776963653a0a5468617420616c6f6e652073686f756c6420656e636f75726167652074686520637265772e0a68725768617420492074656c20796f752074687265652074696d657320697320747275652e220a131c018880808000232ccb0a0002011b00582d), .failsBy 134, .atMost 178⟩ : Vector).check

/-! `VCDiffStandardDecoderTestByteByByte.AddSizeInvalid` -/
#guard (⟨[], dictionary, bytewise (b 136 0xd6c3c4000001811f0079813200640c032049206861766520736169642069742074776963653a0a5468617420616c6f6e652073686f756c6420656e636f75726167652074686520637265772e0a68725768617420492074656c20796f752074687265652074696d657320697320747275652e220a131c0187ffffffff7f232ccb0a0002011b00582d), .failsBy 135, .atMost 178⟩ : Vector).check

/-! `VCDiffStandardDecoderTestByteByByte.RunMoreThanExpectedTarget` -/
#guard (⟨[], dictionary, bytewise (b 131 0xd6c3c4000001811f0079813200640c032049206861766520736169642069742074776963653a0a5468617420616c6f6e652073686f756c6420656e636f75726167652074686520637265772e0a68725768617420492074656c20796f752074687265652074696d657320697320747275652e220a131c013d232ccb0a0081331b00582d), .failsBy 130, .atMost 178⟩ : Vector).check

/-! `VCDiffStandardDecoderTestByteByByte.RunSizeZero` -/
#guard (⟨[], dictionary, bytewise (b 131 0xd6c3c4000001811f0079813200640c032049206861766520736169642069742074776963653a0a5468617420616c6f6e652073686f756c6420656e636f75726167652074686520637265772e0a68725768617420492074656c20796f752074687265652074696d657320697320747275652e220a131c013d232ccb0a0000011b00582d), .failsBy 130, .atMost 178⟩ : Vector).check

/-! `VCDiffStandardDecoderTestByteByByte.RunSizeTooLargeByOne` -/
#guard (⟨[], dictionary, bytewise (b 131 0xd6c3c4000001811f0079813200640c032049206861766520736169642069742074776963653a0a5468617420616c6f6e652073686f756c6420656e636f75726167652074686520637265772e0a68725768617420492074656c20796f752074687265652074696d657320697320747275652e220a131c013d232ccb0a0003011b00582d), .failsBy 130, .atMost 178⟩ : Vector).check

/-! `VCDiffStandardDecoderTestByteByByte.RunSizeTooSmallByOne` -/
#guard (⟨[], dictionary, bytewise (b 131 0xd6c3c4000001811f0079813200640c032049206861766520736169642069742074776963653a0a5468617420616c6f6e652073686f756c6420656e636f75726167652074686520637265772e0a68725768617420492074656c20796f752074687265652074696d657320697320747275652e220a131c013d232ccb0a0001011b00582d), .failsBy 130, .atMost 178⟩ : Vector).check

/-! `VCDiffStandardDecoderTestByteByByte.RunSizeMaxInt` -/
#guard (⟨[], dictionary, bytewise (b 135 0xd6c3c4000001811f0079813200640c032049206861766520736169642069742074776963653a0a5468617420616c6f6e652073686f756c6420656e636f75726167652074686520637265772e0a68725768617420492074656c20796f752074687265652074696d657320697320747275652e220a131c013d232ccb0a0087ffffff7f011b00582d), .failsBy 134, .atMost 178⟩ : Vector).check

/-! `VCDiffStandardDecoderTestByteByByte.RunSizeNegative` -/
#guard (⟨[], dictionary, bytewise (b 135 0xd6c3c4000001811f0079813200640c032049206861766520736169642069742074776963653a0a5468617420616c6f6e652073686f756c6420656e636f75726167652074686520637265772e0a68725768617420492074656c20796f752074687265652074696d657320697320747275652e220a131c013d232ccb0a008880808000011b00582d), .failsBy 134, .atMost 178⟩ : Vector).check

/-! `VCDiffStandardDecoderTestByteByByte.RunSizeInvalid` -/
#guard (⟨[], dictionary, bytewise (b 136 0xd6c3c4000001811f0079813200640c032049206861766520736169642069742074776963653a0a5468617420616c6f6e652073686f756c6420656e636f75726167652074686520637265772e0a68725768617420492074656c20796f752074687265652074696d657320697320747275652e220a131c013d232ccb0a0087ffffffff7f011b00582d), .failsBy 135, .atMost 178⟩ : Vector).check

end Vcd.Vectors.StandardBytes
