import Verif.Vectors.Check

/-!
# The tests of src/vcdecoder1_test.cc as expectations on the model

Tests run when the module is compiled, not proofs. Left out: tests that place buffers next to unmapped pages. The tests
that alter or cut a file at every position are in `Verif.Vectors.Loops`.
-/

namespace Vcd.Vectors.Standard

/-- `kDictionary` (src/vcdecoder_test.cc:41-44). -/
def dictionary : Bytes :=
  b 159 0x224a7573742074686520706c61636520666f72206120536e61726b2122207468652042656c6c6d616e2063726965642c0a4173206865206c616e646564206869732063726577207769746820636172653b0a537570706f7274696e672065616368206d616e206f6e2074686520746f70206f662074686520746964650a427920612066696e67657220656e7477696e656420696e2068697320686169722e0a

/-! `VCDiffStandardDecoderTest.DecodeHeaderOnly` -/
#guard (⟨[], dictionary, [b 5 0xd6c3c40000], .accepted true, .exactly (b 0 0)⟩ : Vector).check

/-! `VCDiffStandardDecoderTest.Decode` -/
#guard (⟨[], dictionary, [b 131 0xd6c3c4000001811f0079813200640c032049206861766520736169642069742074776963653a0a5468617420616c6f6e652073686f756c6420656e636f75726167652074686520637265772e0a68725768617420492074656c20796f752074687265652074696d657320697320747275652e220a131c013d232ccb0a0002011b00582d], .accepted true, .exactly (b 178 0x224a7573742074686520706c61636520666f72206120536e61726b212049206861766520736169642069742074776963653a0a5468617420616c6f6e652073686f756c6420656e636f75726167652074686520637265772e0a4a7573742074686520706c61636520666f72206120536e61726b21204920686176652073616964206974207468726963653a0a5768617420492074656c6c20796f752074687265652074696d657320697320747275652e220a)⟩ : Vector).check

/-! `VCDiffStandardDecoderTest.StandardFormatDoesNotSupportChecksum` -/
#guard (⟨[], dictionary, [b 136 0xd6c3c4000005811f007e813200640c0384c4b8f9302049206861766520736169642069742074776963653a0a5468617420616c6f6e652073686f756c6420656e636f75726167652074686520637265772e0a68725768617420492074656c20796f752074687265652074696d657320697320747275652e220a131c013d232ccb0a0002011b00582d], .failsAt 0, .exactly (b 0 0)⟩ : Vector).check

/-! `VCDiffStandardDecoderTest.FinishAfterDecodingPartialWindow` -/
#guard (⟨[], dictionary, [b 130 0xd6c3c4000001811f0079813200640c032049206861766520736169642069742074776963653a0a5468617420616c6f6e652073686f756c6420656e636f75726167652074686520637265772e0a68725768617420492074656c20796f752074687265652074696d657320697320747275652e220a131c013d232ccb0a0002011b0058], .accepted false, .atMost 178⟩ : Vector).check

/-! `VCDiffStandardDecoderTest.FinishAfterDecodingPartialWindowHeader` -/
#guard (⟨[], dictionary, [b 15 0xd6c3c4000001811f0079813200640c], .accepted false, .exactly (b 0 0)⟩ : Vector).check

/-! `VCDiffStandardDecoderTest.TargetMatchesWindowSizeLimit` -/
#guard (⟨[.setMaxWin 178], dictionary, [b 131 0xd6c3c4000001811f0079813200640c032049206861766520736169642069742074776963653a0a5468617420616c6f6e652073686f756c6420656e636f75726167652074686520637265772e0a68725768617420492074656c20796f752074687265652074696d657320697320747275652e220a131c013d232ccb0a0002011b00582d], .accepted true, .exactly (b 178 0x224a7573742074686520706c61636520666f72206120536e61726b212049206861766520736169642069742074776963653a0a5468617420616c6f6e652073686f756c6420656e636f75726167652074686520637265772e0a4a7573742074686520706c61636520666f72206120536e61726b21204920686176652073616964206974207468726963653a0a5768617420492074656c6c20796f752074687265652074696d657320697320747275652e220a)⟩ : Vector).check

/-! `VCDiffStandardDecoderTest.TargetMatchesFileSizeLimit` -/
#guard (⟨[.setMaxFile 178], dictionary, [b 131 0xd6c3c4000001811f0079813200640c032049206861766520736169642069742074776963653a0a5468617420616c6f6e652073686f756c6420656e636f75726167652074686520637265772e0a68725768617420492074656c20796f752074687265652074696d657320697320747275652e220a131c013d232ccb0a0002011b00582d], .accepted true, .exactly (b 178 0x224a7573742074686520706c61636520666f72206120536e61726b212049206861766520736169642069742074776963653a0a5468617420616c6f6e652073686f756c6420656e636f75726167652074686520637265772e0a4a7573742074686520706c61636520666f72206120536e61726b21204920686176652073616964206974207468726963653a0a5768617420492074656c6c20796f752074687265652074696d657320697320747275652e220a)⟩ : Vector).check

/-! `VCDiffStandardDecoderTest.TargetExceedsWindowSizeLimit` -/
#guard (⟨[.setMaxWin 177], dictionary, [b 131 0xd6c3c4000001811f0079813200640c032049206861766520736169642069742074776963653a0a5468617420616c6f6e652073686f756c6420656e636f75726167652074686520637265772e0a68725768617420492074656c20796f752074687265652074696d657320697320747275652e220a131c013d232ccb0a0002011b00582d], .failsAt 0, .exactly (b 0 0)⟩ : Vector).check

/-! `VCDiffStandardDecoderTest.TargetExceedsFileSizeLimit` -/
#guard (⟨[.setMaxFile 177], dictionary, [b 131 0xd6c3c4000001811f0079813200640c032049206861766520736169642069742074776963653a0a5468617420616c6f6e652073686f756c6420656e636f75726167652074686520637265772e0a68725768617420492074656c20796f752074687265652074696d657320697320747275652e220a131c013d232ccb0a0002011b00582d], .failsAt 0, .exactly (b 0 0)⟩ : Vector).check

/-! `VCDiffStandardDecoderTest.WinIndicatorHasBothSourceAndTarget` -/
#guard (⟨[], dictionary, [b 131 0xd6c3c4000003811f0079813200640c032049206861766520736169642069742074776963653a0a5468617420616c6f6e652073686f756c6420656e636f75726167652074686520637265772e0a68725768617420492074656c20796f752074687265652074696d657320697320747275652e220a131c013d232ccb0a0002011b00582d], .failsAt 0, .exactly (b 0 0)⟩ : Vector).check

/-! `VCDiffStandardDecoderTest.OkayToSetUpperBitsOfWinIndicator` -/
#guard (⟨[], dictionary, [b 131 0xd6c3c40000fd811f0079813200640c032049206861766520736169642069742074776963653a0a5468617420616c6f6e652073686f756c6420656e636f75726167652074686520637265772e0a68725768617420492074656c20796f752074687265652074696d657320697320747275652e220a131c013d232ccb0a0002011b00582d], .accepted true, .exactly (b 178 0x224a7573742074686520706c61636520666f72206120536e61726b212049206861766520736169642069742074776963653a0a5468617420616c6f6e652073686f756c6420656e636f75726167652074686520637265772e0a4a7573742074686520706c61636520666f72206120536e61726b21204920686176652073616964206974207468726963653a0a5768617420492074656c6c20796f752074687265652074696d657320697320747275652e220a)⟩ : Vector).check

/-! `VCDiffStandardDecoderTest.CopyInstructionsShouldFailIfNoSourceSegment` -/
#guard (⟨[], dictionary, [b 128 0xd6c3c400000079813200640c032049206861766520736169642069742074776963653a0a5468617420616c6f6e652073686f756c6420656e636f75726167652074686520637265772e0a68725768617420492074656c20796f752074687265652074696d657320697320747275652e220a131c013d232ccb0a0002011b00582d], .failsAt 0, .exactly (b 0 0)⟩ : Vector).check

/-! `VCDiffStandardDecoderTest.SourceSegmentSizeExceedsDictionarySize` -/
#guard (⟨[], dictionary, [b 131 0xd6c3c400000181200079813200640c032049206861766520736169642069742074776963653a0a5468617420616c6f6e652073686f756c6420656e636f75726167652074686520637265772e0a68725768617420492074656c20796f752074687265652074696d657320697320747275652e220a131c013d232ccb0a0002011b00582d], .failsAt 0, .exactly (b 0 0)⟩ : Vector).check

/-! `VCDiffStandardDecoderTest.SourceSegmentSizeMaxInt` -/
#guard (⟨[], dictionary, [b 134 0xd6c3c400000187ffffff7f0079813200640c032049206861766520736169642069742074776963653a0a5468617420616c6f6e652073686f756c6420656e636f75726167652074686520637265772e0a68725768617420492074656c20796f752074687265652074696d657320697320747275652e220a131c013d232ccb0a0002011b00582d], .failsAt 0, .exactly (b 0 0)⟩ : Vector).check

/-! `VCDiffStandardDecoderTest.SourceSegmentSizeNegative` -/
#guard (⟨[], dictionary, [b 134 0xd6c3c400000188808080000079813200640c032049206861766520736169642069742074776963653a0a5468617420616c6f6e652073686f756c6420656e636f75726167652074686520637265772e0a68725768617420492074656c20796f752074687265652074696d657320697320747275652e220a131c013d232ccb0a0002011b00582d], .failsAt 0, .exactly (b 0 0)⟩ : Vector).check

/-! `VCDiffStandardDecoderTest.SourceSegmentSizeInvalid` -/
#guard (⟨[], dictionary, [b 135 0xd6c3c400000187ffffffff7f0079813200640c032049206861766520736169642069742074776963653a0a5468617420616c6f6e652073686f756c6420656e636f75726167652074686520637265772e0a68725768617420492074656c20796f752074687265652074696d657320697320747275652e220a131c013d232ccb0a0002011b00582d], .failsAt 0, .exactly (b 0 0)⟩ : Vector).check

/-! `VCDiffStandardDecoderTest.SourceSegmentEndExceedsDictionarySize` -/
#guard (⟨[], dictionary, [b 131 0xd6c3c4000001811f0179813200640c032049206861766520736169642069742074776963653a0a5468617420616c6f6e652073686f756c6420656e636f75726167652074686520637265772e0a68725768617420492074656c20796f752074687265652074696d657320697320747275652e220a131c013d232ccb0a0002011b00582d], .failsAt 0, .exactly (b 0 0)⟩ : Vector).check

/-! `VCDiffStandardDecoderTest.SourceSegmentPosMaxInt` -/
#guard (⟨[], dictionary, [b 135 0xd6c3c4000001811f87ffffff7f79813200640c032049206861766520736169642069742074776963653a0a5468617420616c6f6e652073686f756c6420656e636f75726167652074686520637265772e0a68725768617420492074656c20796f752074687265652074696d657320697320747275652e220a131c013d232ccb0a0002011b00582d], .failsAt 0, .exactly (b 0 0)⟩ : Vector).check

/-! `VCDiffStandardDecoderTest.SourceSegmentPosNegative` -/
#guard (⟨[], dictionary, [b 135 0xd6c3c4000001811f888080800079813200640c032049206861766520736169642069742074776963653a0a5468617420616c6f6e652073686f756c6420656e636f75726167652074686520637265772e0a68725768617420492074656c20796f752074687265652074696d657320697320747275652e220a131c013d232ccb0a0002011b00582d], .failsAt 0, .exactly (b 0 0)⟩ : Vector).check

/-! `VCDiffStandardDecoderTest.SourceSegmentPosInvalid` -/
#guard (⟨[], dictionary, [b 136 0xd6c3c4000001811f87ffffffff7f79813200640c032049206861766520736169642069742074776963653a0a5468617420616c6f6e652073686f756c6420656e636f75726167652074686520637265772e0a68725768617420492074656c20796f752074687265652074696d657320697320747275652e220a131c013d232ccb0a0002011b00582d], .failsAt 0, .exactly (b 0 0)⟩ : Vector).check

/-! `VCDiffStandardDecoderTest.DeltaEncodingLengthZero` -/
#guard (⟨[], dictionary, [b 131 0xd6c3c4000001811f0000813200640c032049206861766520736169642069742074776963653a0a5468617420616c6f6e652073686f756c6420656e636f75726167652074686520637265772e0a68725768617420492074656c20796f752074687265652074696d657320697320747275652e220a131c013d232ccb0a0002011b00582d], .failsAt 0, .exactly (b 0 0)⟩ : Vector).check

/-! `VCDiffStandardDecoderTest.DeltaEncodingLengthTooLargeByOne` -/
#guard (⟨[], dictionary, [b 131 0xd6c3c4000001811f007a813200640c032049206861766520736169642069742074776963653a0a5468617420616c6f6e652073686f756c6420656e636f75726167652074686520637265772e0a68725768617420492074656c20796f752074687265652074696d657320697320747275652e220a131c013d232ccb0a0002011b00582d], .failsAt 0, .exactly (b 0 0)⟩ : Vector).check

/-! `VCDiffStandardDecoderTest.DeltaEncodingLengthTooSmallByOne` -/
#guard (⟨[], dictionary, [b 131 0xd6c3c4000001811f0078813200640c032049206861766520736169642069742074776963653a0a5468617420616c6f6e652073686f756c6420656e636f75726167652074686520637265772e0a68725768617420492074656c20796f752074687265652074696d657320697320747275652e220a131c013d232ccb0a0002011b00582d], .failsAt 0, .exactly (b 0 0)⟩ : Vector).check

/-! `VCDiffStandardDecoderTest.DeltaEncodingLengthMaxInt` -/
#guard (⟨[], dictionary, [b 135 0xd6c3c4000001811f0087ffffff7f813200640c032049206861766520736169642069742074776963653a0a5468617420616c6f6e652073686f756c6420656e636f75726167652074686520637265772e0a68725768617420492074656c20796f752074687265652074696d657320697320747275652e220a131c013d232ccb0a0002011b00582d], .failsAt 0, .exactly (b 0 0)⟩ : Vector).check

/-! `VCDiffStandardDecoderTest.DeltaEncodingLengthNegative` -/
#guard (⟨[], dictionary, [b 135 0xd6c3c4000001811f008880808000813200640c032049206861766520736169642069742074776963653a0a5468617420616c6f6e652073686f756c6420656e636f75726167652074686520637265772e0a68725768617420492074656c20796f752074687265652074696d657320697320747275652e220a131c013d232ccb0a0002011b00582d], .failsAt 0, .exactly (b 0 0)⟩ : Vector).check

/-! `VCDiffStandardDecoderTest.DeltaEncodingLengthInvalid` -/
#guard (⟨[], dictionary, [b 136 0xd6c3c4000001811f0087ffffffff7f813200640c032049206861766520736169642069742074776963653a0a5468617420616c6f6e652073686f756c6420656e636f75726167652074686520637265772e0a68725768617420492074656c20796f752074687265652074696d657320697320747275652e220a131c013d232ccb0a0002011b00582d], .failsAt 0, .exactly (b 0 0)⟩ : Vector).check

/-! `VCDiffStandardDecoderTest.TargetWindowSizeZero` -/
#guard (⟨[], dictionary, [b 130 0xd6c3c4000001811f00790000640c032049206861766520736169642069742074776963653a0a5468617420616c6f6e652073686f756c6420656e636f75726167652074686520637265772e0a68725768617420492074656c20796f752074687265652074696d657320697320747275652e220a131c013d232ccb0a0002011b00582d], .failsAt 0, .exactly (b 0 0)⟩ : Vector).check

/-! `VCDiffStandardDecoderTest.TargetWindowSizeTooLargeByOne` -/
#guard (⟨[], dictionary, [b 131 0xd6c3c4000001811f0079813300640c032049206861766520736169642069742074776963653a0a5468617420616c6f6e652073686f756c6420656e636f75726167652074686520637265772e0a68725768617420492074656c20796f752074687265652074696d657320697320747275652e220a131c013d232ccb0a0002011b00582d], .failsAt 0, .exactly (b 0 0)⟩ : Vector).check

/-! `VCDiffStandardDecoderTest.TargetWindowSizeTooSmallByOne` -/
#guard (⟨[], dictionary, [b 131 0xd6c3c4000001811f0079813100640c032049206861766520736169642069742074776963653a0a5468617420616c6f6e652073686f756c6420656e636f75726167652074686520637265772e0a68725768617420492074656c20796f752074687265652074696d657320697320747275652e220a131c013d232ccb0a0002011b00582d], .failsAt 0, .exactly (b 0 0)⟩ : Vector).check

/-! `VCDiffStandardDecoderTest.TargetWindowSizeMaxInt` -/
#guard (⟨[], dictionary, [b 134 0xd6c3c4000001811f007987ffffff7f00640c032049206861766520736169642069742074776963653a0a5468617420616c6f6e652073686f756c6420656e636f75726167652074686520637265772e0a68725768617420492074656c20796f752074687265652074696d657320697320747275652e220a131c013d232ccb0a0002011b00582d], .failsAt 0, .exactly (b 0 0)⟩ : Vector).check

/-! `VCDiffStandardDecoderTest.TargetWindowSizeNegative` -/
#guard (⟨[], dictionary, [b 134 0xd6c3c4000001811f0079888080800000640c032049206861766520736169642069742074776963653a0a5468617420616c6f6e652073686f756c6420656e636f75726167652074686520637265772e0a68725768617420492074656c20796f752074687265652074696d657320697320747275652e220a131c013d232ccb0a0002011b00582d], .failsAt 0, .exactly (b 0 0)⟩ : Vector).check

/-! `VCDiffStandardDecoderTest.TargetWindowSizeInvalid` -/
#guard (⟨[], dictionary, [b 135 0xd6c3c4000001811f007987ffffffff7f00640c032049206861766520736169642069742074776963653a0a5468617420616c6f6e652073686f756c6420656e636f75726167652074686520637265772e0a68725768617420492074656c20796f752074687265652074696d657320697320747275652e220a131c013d232ccb0a0002011b00582d], .failsAt 0, .exactly (b 0 0)⟩ : Vector).check

/-! `VCDiffStandardDecoderTest.OkayToSetUpperBitsOfDeltaIndicator` -/
#guard (⟨[], dictionary, [b 131 0xd6c3c4000001811f00798132f8640c032049206861766520736169642069742074776963653a0a5468617420616c6f6e652073686f756c6420656e636f75726167652074686520637265772e0a68725768617420492074656c20796f752074687265652074696d657320697320747275652e220a131c013d232ccb0a0002011b00582d], .accepted true, .exactly (b 178 0x224a7573742074686520706c61636520666f72206120536e61726b212049206861766520736169642069742074776963653a0a5468617420616c6f6e652073686f756c6420656e636f75726167652074686520637265772e0a4a7573742074686520706c61636520666f72206120536e61726b21204920686176652073616964206974207468726963653a0a5768617420492074656c6c20796f752074687265652074696d657320697320747275652e220a)⟩ : Vector).check

/-! `VCDiffStandardDecoderTest.DataCompressionNotSupported` -/
#guard (⟨[], dictionary, [b 131 0xd6c3c4000001811f0079813201640c032049206861766520736169642069742074776963653a0a5468617420616c6f6e652073686f756c6420656e636f75726167652074686520637265772e0a68725768617420492074656c20796f752074687265652074696d657320697320747275652e220a131c013d232ccb0a0002011b00582d], .failsAt 0, .exactly (b 0 0)⟩ : Vector).check

/-! `VCDiffStandardDecoderTest.InstructionCompressionNotSupported` -/
#guard (⟨[], dictionary, [b 131 0xd6c3c4000001811f0079813202640c032049206861766520736169642069742074776963653a0a5468617420616c6f6e652073686f756c6420656e636f75726167652074686520637265772e0a68725768617420492074656c20796f752074687265652074696d657320697320747275652e220a131c013d232ccb0a0002011b00582d], .failsAt 0, .exactly (b 0 0)⟩ : Vector).check

/-! `VCDiffStandardDecoderTest.AddressCompressionNotSupported` -/
#guard (⟨[], dictionary, [b 131 0xd6c3c4000001811f0079813204640c032049206861766520736169642069742074776963653a0a5468617420616c6f6e652073686f756c6420656e636f75726167652074686520637265772e0a68725768617420492074656c20796f752074687265652074696d657320697320747275652e220a131c013d232ccb0a0002011b00582d], .failsAt 0, .exactly (b 0 0)⟩ : Vector).check

/-! `VCDiffStandardDecoderTest.AddRunDataSizeZero` -/
#guard (⟨[], dictionary, [b 131 0xd6c3c4000001811f0079813200000c032049206861766520736169642069742074776963653a0a5468617420616c6f6e652073686f756c6420656e636f75726167652074686520637265772e0a68725768617420492074656c20796f752074687265652074696d657320697320747275652e220a131c013d232ccb0a0002011b00582d], .failsAt 0, .exactly (b 0 0)⟩ : Vector).check

/-! `VCDiffStandardDecoderTest.AddRunDataSizeTooLargeByOne` -/
#guard (⟨[], dictionary, [b 131 0xd6c3c4000001811f0079813200650c032049206861766520736169642069742074776963653a0a5468617420616c6f6e652073686f756c6420656e636f75726167652074686520637265772e0a68725768617420492074656c20796f752074687265652074696d657320697320747275652e220a131c013d232ccb0a0002011b00582d], .failsAt 0, .exactly (b 0 0)⟩ : Vector).check

/-! `VCDiffStandardDecoderTest.AddRunDataSizeTooSmallByOne` -/
#guard (⟨[], dictionary, [b 131 0xd6c3c4000001811f0079813200630c032049206861766520736169642069742074776963653a0a5468617420616c6f6e652073686f756c6420656e636f75726167652074686520637265772e0a68725768617420492074656c20796f752074687265652074696d657320697320747275652e220a131c013d232ccb0a0002011b00582d], .failsAt 0, .exactly (b 0 0)⟩ : Vector).check

/-! `VCDiffStandardDecoderTest.AddRunDataSizeMaxInt` -/
#guard (⟨[], dictionary, [b 135 0xd6c3c4000001811f007981320087ffffff7f0c032049206861766520736169642069742074776963653a0a5468617420616c6f6e652073686f756c6420656e636f75726167652074686520637265772e0a68725768617420492074656c20796f752074687265652074696d657320697320747275652e220a131c013d232ccb0a0002011b00582d], .failsAt 0, .exactly (b 0 0)⟩ : Vector).check

/-! `VCDiffStandardDecoderTest.AddRunDataSizeNegative` -/
#guard (⟨[], dictionary, [b 135 0xd6c3c4000001811f007981320088808080000c032049206861766520736169642069742074776963653a0a5468617420616c6f6e652073686f756c6420656e636f75726167652074686520637265772e0a68725768617420492074656c20796f752074687265652074696d657320697320747275652e220a131c013d232ccb0a0002011b00582d], .failsAt 0, .exactly (b 0 0)⟩ : Vector).check

/-! `VCDiffStandardDecoderTest.AddRunDataSizeInvalid` -/
#guard (⟨[], dictionary, [b 136 0xd6c3c4000001811f007981320087ffffffff7f0c032049206861766520736169642069742074776963653a0a5468617420616c6f6e652073686f756c6420656e636f75726167652074686520637265772e0a68725768617420492074656c20796f752074687265652074696d657320697320747275652e220a131c013d232ccb0a0002011b00582d], .failsAt 0, .exactly (b 0 0)⟩ : Vector).check

/-! `VCDiffStandardDecoderTest.InstructionsSizeZero` -/
#guard (⟨[], dictionary, [b 131 0xd6c3c4000001811f00798132006400032049206861766520736169642069742074776963653a0a5468617420616c6f6e652073686f756c6420656e636f75726167652074686520637265772e0a68725768617420492074656c20796f752074687265652074696d657320697320747275652e220a131c013d232ccb0a0002011b00582d], .failsAt 0, .exactly (b 0 0)⟩ : Vector).check

/-! `VCDiffStandardDecoderTest.InstructionsSizeTooLargeByOne` -/
#guard (⟨[], dictionary, [b 131 0xd6c3c4000001811f0079813200640d032049206861766520736169642069742074776963653a0a5468617420616c6f6e652073686f756c6420656e636f75726167652074686520637265772e0a68725768617420492074656c20796f752074687265652074696d657320697320747275652e220a131c013d232ccb0a0002011b00582d], .failsAt 0, .exactly (b 0 0)⟩ : Vector).check

/-! `VCDiffStandardDecoderTest.InstructionsSizeTooSmallByOne` -/
#guard (⟨[], dictionary, [b 131 0xd6c3c4000001811f0079813200640b032049206861766520736169642069742074776963653a0a5468617420616c6f6e652073686f756c6420656e636f75726167652074686520637265772e0a68725768617420492074656c20796f752074687265652074696d657320697320747275652e220a131c013d232ccb0a0002011b00582d], .failsAt 0, .exactly (b 0 0)⟩ : Vector).check

/-! `VCDiffStandardDecoderTest.InstructionsSizeMaxInt` -/
#guard (⟨[], dictionary, [b 135 0xd6c3c4000001811f00798132006487ffffff7f032049206861766520736169642069742074776963653a0a5468617420616c6f6e652073686f756c6420656e636f75726167652074686520637265772e0a68725768617420492074656c20796f752074687265652074696d657320697320747275652e220a131c013d232ccb0a0002011b00582d], .failsAt 0, .exactly (b 0 0)⟩ : Vector).check

/-! `VCDiffStandardDecoderTest.InstructionsSizeNegative` -/
#guard (⟨[], dictionary, [b 135 0xd6c3c4000001811f0079813200648880808000032049206861766520736169642069742074776963653a0a5468617420616c6f6e652073686f756c6420656e636f75726167652074686520637265772e0a68725768617420492074656c20796f752074687265652074696d657320697320747275652e220a131c013d232ccb0a0002011b00582d], .failsAt 0, .exactly (b 0 0)⟩ : Vector).check

/-! `VCDiffStandardDecoderTest.InstructionsSizeInvalid` -/
#guard (⟨[], dictionary, [b 136 0xd6c3c4000001811f00798132006487ffffffff7f032049206861766520736169642069742074776963653a0a5468617420616c6f6e652073686f756c6420656e636f75726167652074686520637265772e0a68725768617420492074656c20796f752074687265652074696d657320697320747275652e220a131c013d232ccb0a0002011b00582d], .failsAt 0, .exactly (b 0 0)⟩ : Vector).check

/-! `VCDiffStandardDecoderTest.CopyAddressSizeZero` -/
#guard (⟨[], dictionary, [b 131 0xd6c3c4000001811f0079813200640c002049206861766520736169642069742074776963653a0a5468617420616c6f6e652073686f756c6420656e636f75726167652074686520637265772e0a68725768617420492074656c20796f752074687265652074696d657320697320747275652e220a131c013d232ccb0a0002011b00582d], .failsAt 0, .exactly (b 0 0)⟩ : Vector).check

/-! `VCDiffStandardDecoderTest.CopyAddressSizeTooLargeByOne` -/
#guard (⟨[], dictionary, [b 131 0xd6c3c4000001811f0079813200640c042049206861766520736169642069742074776963653a0a5468617420616c6f6e652073686f756c6420656e636f75726167652074686520637265772e0a68725768617420492074656c20796f752074687265652074696d657320697320747275652e220a131c013d232ccb0a0002011b00582d], .failsAt 0, .exactly (b 0 0)⟩ : Vector).check

/-! `VCDiffStandardDecoderTest.CopyAddressSizeTooSmallByOne` -/
#guard (⟨[], dictionary, [b 131 0xd6c3c4000001811f0079813200640c022049206861766520736169642069742074776963653a0a5468617420616c6f6e652073686f756c6420656e636f75726167652074686520637265772e0a68725768617420492074656c20796f752074687265652074696d657320697320747275652e220a131c013d232ccb0a0002011b00582d], .failsAt 0, .exactly (b 0 0)⟩ : Vector).check

/-! `VCDiffStandardDecoderTest.CopyAddressSizeMaxInt` -/
#guard (⟨[], dictionary, [b 135 0xd6c3c4000001811f0079813200640c87ffffff7f2049206861766520736169642069742074776963653a0a5468617420616c6f6e652073686f756c6420656e636f75726167652074686520637265772e0a68725768617420492074656c20796f752074687265652074696d657320697320747275652e220a131c013d232ccb0a0002011b00582d], .failsAt 0, .exactly (b 0 0)⟩ : Vector).check

/-! `VCDiffStandardDecoderTest.CopyAddressSizeNegative` -/
#guard (⟨[], dictionary, [b 135 0xd6c3c4000001811f0079813200640c88808080002049206861766520736169642069742074776963653a0a5468617420616c6f6e652073686f756c6420656e636f75726167652074686520637265772e0a68725768617420492074656c20796f752074687265652074696d657320697320747275652e220a131c013d232ccb0a0002011b00582d], .failsAt 0, .exactly (b 0 0)⟩ : Vector).check

/-! `VCDiffStandardDecoderTest.CopyAddressSizeInvalid` -/
#guard (⟨[], dictionary, [b 136 0xd6c3c4000001811f0079813200640c87ffffffff7f2049206861766520736169642069742074776963653a0a5468617420616c6f6e652073686f756c6420656e636f75726167652074686520637265772e0a68725768617420492074656c20796f752074687265652074696d657320697320747275652e220a131c013d232ccb0a0002011b00582d], .failsAt 0, .exactly (b 0 0)⟩ : Vector).check

/-! `VCDiffStandardDecoderTest.InstructionsEndEarly` -/
#guard (⟨[], dictionary, [b 131 0xd6c3c4000001811f0079813200640b042049206861766520736169642069742074776963653a0a5468617420616c6f6e652073686f756c6420656e636f75726167652074686520637265772e0a68725768617420492074656c20796f752074687265652074696d657320697320747275652e220a131c013d232ccb0a0002011b00582d], .failsAt 0, .exactly (b 0 0)⟩ : Vector).check

/-! `VCDiffStandardDecoderTest.CopyMoreThanExpectedTarget` -/
#guard (⟨[], dictionary, [b 131 0xd6c3c4000001811f0079813200640c032049206861766520736169642069742074776963653a0a5468617420616c6f6e652073686f756c6420656e636f75726167652074686520637265772e0a68725768617420492074656c20796f752074687265652074696d657320697320747275652e220a1381333d232ccb0a0002011b00582d], .failsAt 0, .exactly (b 0 0)⟩ : Vector).check

/-! `VCDiffStandardDecoderTest.CopySizeZero` -/
#guard (⟨[], dictionary, [b 131 0xd6c3c4000001811f0079813200640c032049206861766520736169642069742074776963653a0a5468617420616c6f6e652073686f756c6420656e636f75726167652074686520637265772e0a68725768617420492074656c20796f752074687265652074696d657320697320747275652e220a1300013d232ccb0a0002011b00582d], .failsAt 0, .exactly (b 0 0)⟩ : Vector).check

/-! `VCDiffStandardDecoderTest.CopySizeTooLargeByOne` -/
#guard (⟨[], dictionary, [b 131 0xd6c3c4000001811f0079813200640c032049206861766520736169642069742074776963653a0a5468617420616c6f6e652073686f756c6420656e636f75726167652074686520637265772e0a68725768617420492074656c20796f752074687265652074696d657320697320747275652e220a131d013d232ccb0a0002011b00582d], .failsAt 0, .exactly (b 0 0)⟩ : Vector).check

/-! `VCDiffStandardDecoderTest.CopySizeTooSmallByOne` -/
#guard (⟨[], dictionary, [b 131 0xd6c3c4000001811f0079813200640c032049206861766520736169642069742074776963653a0a5468617420616c6f6e652073686f756c6420656e636f75726167652074686520637265772e0a68725768617420492074656c20796f752074687265652074696d657320697320747275652e220a131b013d232ccb0a0002011b00582d], .failsAt 0, .exactly (b 0 0)⟩ : Vector).check

/-! `VCDiffStandardDecoderTest.CopySizeMaxInt` -/
#guard (⟨[], dictionary, [b 135 0xd6c3c4000001811f0079813200640c032049206861766520736169642069742074776963653a0a5468617420616c6f6e652073686f756c6420656e636f75726167652074686520637265772e0a68725768617420492074656c20796f752074687265652074696d657320697320747275652e220a1387ffffff7f013d232ccb0a0002011b00582d], .failsAt 0, .exactly (b 0 0)⟩ : Vector).check

/-! `VCDiffStandardDecoderTest.CopySizeNegative` -/
#guard (⟨[], dictionary, [b 135 0xd6c3c4000001811f0079813200640c032049206861766520736169642069742074776963653a0a5468617420616c6f6e652073686f756c6420656e636f75726167652074686520637265772e0a68725768617420492074656c20796f752074687265652074696d657320697320747275652e220a138880808000013d232ccb0a0002011b00582d], .failsAt 0, .exactly (b 0 0)⟩ : Vector).check

/-! `VCDiffStandardDecoderTest.CopySizeInvalid` -/
#guard (⟨[], dictionary, [b 136 0xd6c3c4000001811f0079813200640c032049206861766520736169642069742074776963653a0a5468617420616c6f6e652073686f756c6420656e636f75726167652074686520637265772e0a68725768617420492074656c20796f752074687265652074696d657320697320747275652e220a1387ffffffff7f013d232ccb0a0002011b00582d], .failsAt 0, .exactly (b 0 0)⟩ : Vector).check

/-! `VCDiffStandardDecoderTest.CopyAddressBeyondHereAddress` -/
#guard (⟨[], dictionary, [b 131 0xd6c3c4000001811f0079813200640c032049206861766520736169642069742074776963653a0a5468617420616c6f6e652073686f756c6420656e636f75726167652074686520637265772e0a68725768617420492074656c20796f752074687265652074696d657320697320747275652e220a131c013d232ccb0a0002011b811f2d], .failsAt 0, .exactly (b 0 0)⟩ : Vector).check

/-! `VCDiffStandardDecoderTest.CopyAddressMaxInt` -/
#guard (⟨[], dictionary, [b 135 0xd6c3c4000001811f0079813200640c032049206861766520736169642069742074776963653a0a5468617420616c6f6e652073686f756c6420656e636f75726167652074686520637265772e0a68725768617420492074656c20796f752074687265652074696d657320697320747275652e220a131c013d232ccb0a0002011b87ffffff7f582d], .failsAt 0, .exactly (b 0 0)⟩ : Vector).check

/-! `VCDiffStandardDecoderTest.CopyAddressNegative` -/
#guard (⟨[], dictionary, [b 135 0xd6c3c4000001811f0079813200640c032049206861766520736169642069742074776963653a0a5468617420616c6f6e652073686f756c6420656e636f75726167652074686520637265772e0a68725768617420492074656c20796f752074687265652074696d657320697320747275652e220a138880808000013d232ccb0a0002011b00582d], .failsAt 0, .exactly (b 0 0)⟩ : Vector).check

/-! `VCDiffStandardDecoderTest.CopyAddressInvalid` -/
#guard (⟨[], dictionary, [b 136 0xd6c3c4000001811f0079813200640c032049206861766520736169642069742074776963653a0a5468617420616c6f6e652073686f756c6420656e636f75726167652074686520637265772e0a68725768617420492074656c20796f752074687265652074696d657320697320747275652e220a1387ffffffff7f013d232ccb0a0002011b00582d], .failsAt 0, .exactly (b 0 0)⟩ : Vector).check

/-! `VCDiffStandardDecoderTest.AddMoreThanExpectedTarget` -/
#guard (⟨[], dictionary, [b 131 0xd6c3c4000001811f0079813200640c032049206861766520736169642069742074776963653a0a5468617420616c6f6e652073686f756c6420656e636f75726167652074686520637265772e0a68725768617420492074656c20796f752074687265652074696d657320697320747275652e220a131c0181332ccb0a0002011b00582d], .failsAt 0, .exactly (b 0 0)⟩ : Vector).check

/-! `VCDiffStandardDecoderTest.AddSizeZero` -/
#guard (⟨[], dictionary, [b 131 0xd6c3c4000001811f0079813200640c032049206861766520736169642069742074776963653a0a5468617420616c6f6e652073686f756c6420656e636f75726167652074686520637265772e0a68725768617420492074656c20796f752074687265652074696d657320697320747275652e220a131c0100232ccb0a0002011b00582d], .failsAt 0, .exactly (b 0 0)⟩ : Vector).check

/-! `VCDiffStandardDecoderTest.AddSizeTooLargeByOne` -/
#guard (⟨[], dictionary, [b 131 0xd6c3c4000001811f0079813200640c032049206861766520736169642069742074776963653a0a5468617420616c6f6e652073686f756c6420656e636f75726167652074686520637265772e0a68725768617420492074656c20796f752074687265652074696d657320697320747275652e220a131c013e232ccb0a0002011b00582d], .failsAt 0, .exactly (b 0 0)⟩ : Vector).check

/-! `VCDiffStandardDecoderTest.AddSizeTooSmallByOne` -/
#guard (⟨[], dictionary, [b 131 0xd6c3c4000001811f0079813200640c032049206861766520736169642069742074776963653a0a5468617420616c6f6e652073686f756c6420656e636f75726167652074686520637265772e0a68725768617420492074656c20796f752074687265652074696d657320697320747275652e220a131c013c232ccb0a0002011b00582d], .failsAt 0, .exactly (b 0 0)⟩ : Vector).check

/-! `VCDiffStandardDecoderTest.AddSizeMaxInt` -/
#guard (⟨[], dictionary, [b 135 0xd6c3c4000001811f0079813200640c032049206861766520736169642069742074776963653a0a5468617420616c6f6e652073686f756c6420656e636f75726167652074686520637265772e0a68725768617420492074656c20796f752074687265652074696d657320697320747275652e220a131c0187ffffff7f232ccb0a0002011b00582d], .failsAt 0, .exactly (b 0 0)⟩ : Vector).check

/-! `VCDiffStandardDecoderTest.AddSizeNegative` -/
#guard (⟨[], dictionary, [b 135 0xd6c3c4000001811f0079813200640c032049206861766520736169642069742074776963653a0a5468617420616c6f6e652073686f756c6420656e636f75726167652074686520637265772e0a68725768617420492074656c20796f752074687265652074696d657320697320747275652e220a131c018880808000232ccb0a0002011b00582d], .failsAt 0, .exactly (b 0 0)⟩ : Vector).check

/-! `VCDiffStandardDecoderTest.AddSizeInvalid` -/
#guard (⟨[], dictionary, [b 136 0xd6c3c4000001811f0079813200640c032049206861766520736169642069742074776963653a0a5468617420616c6f6e652073686f756c6420656e636f75726167652074686520637265772e0a68725768617420492074656c20796f752074687265652074696d657320697320747275652e220a131c0187ffffffff7f232ccb0a0002011b00582d], .failsAt 0, .exactly (b 0 0)⟩ : Vector).check

/-! `VCDiffStandardDecoderTest.RunMoreThanExpectedTarget` -/
#guard (⟨[], dictionary, [b 131 0xd6c3c4000001811f0079813200640c032049206861766520736169642069742074776963653a0a5468617420616c6f6e652073686f756c6420656e636f75726167652074686520637265772e0a68725768617420492074656c20796f752074687265652074696d657320697320747275652e220a131c013d232ccb0a0081331b00582d], .failsAt 0, .exactly (b 0 0)⟩ : Vector).check

/-! `VCDiffStandardDecoderTest.RunSizeZero` -/
#guard (⟨[], dictionary, [b 131 0xd6c3c4000001811f0079813200640c032049206861766520736169642069742074776963653a0a5468617420616c6f6e652073686f756c6420656e636f75726167652074686520637265772e0a68725768617420492074656c20796f752074687265652074696d657320697320747275652e220a131c013d232ccb0a0000011b00582d], .failsAt 0, .exactly (b 0 0)⟩ : Vector).check

/-! `VCDiffStandardDecoderTest.RunSizeTooLargeByOne` -/
#guard (⟨[], dictionary, [b 131 0xd6c3c4000001811f0079813200640c032049206861766520736169642069742074776963653a0a5468617420616c6f6e652073686f756c6420656e636f75726167652074686520637265772e0a68725768617420492074656c20796f752074687265652074696d657320697320747275652e220a131c013d232ccb0a0003011b00582d], .failsAt 0, .exactly (b 0 0)⟩ : Vector).check

/-! `VCDiffStandardDecoderTest.RunSizeTooSmallByOne` -/
#guard (⟨[], dictionary, [b 131 0xd6c3c4000001811f0079813200640c032049206861766520736169642069742074776963653a0a5468617420616c6f6e652073686f756c6420656e636f75726167652074686520637265772e0a68725768617420492074656c20796f752074687265652074696d657320697320747275652e220a131c013d232ccb0a0001011b00582d], .failsAt 0, .exactly (b 0 0)⟩ : Vector).check

/-! `VCDiffStandardDecoderTest.RunSizeMaxInt` -/
#guard (⟨[], dictionary, [b 135 0xd6c3c4000001811f0079813200640c032049206861766520736169642069742074776963653a0a5468617420616c6f6e652073686f756c6420656e636f75726167652074686520637265772e0a68725768617420492074656c20796f752074687265652074696d657320697320747275652e220a131c013d232ccb0a0087ffffff7f011b00582d], .failsAt 0, .exactly (b 0 0)⟩ : Vector).check

/-! `VCDiffStandardDecoderTest.RunSizeNegative` -/
#guard (⟨[], dictionary, [b 135 0xd6c3c4000001811f0079813200640c032049206861766520736169642069742074776963653a0a5468617420616c6f6e652073686f756c6420656e636f75726167652074686520637265772e0a68725768617420492074656c20796f752074687265652074696d657320697320747275652e220a131c013d232ccb0a008880808000011b00582d], .failsAt 0, .exactly (b 0 0)⟩ : Vector).check

/-! `VCDiffStandardDecoderTest.RunSizeInvalid` -/
#guard (⟨[], dictionary, [b 136 0xd6c3c4000001811f0079813200640c032049206861766520736169642069742074776963653a0a5468617420616c6f6e652073686f756c6420656e636f75726167652074686520637265772e0a68725768617420492074656c20796f752074687265652074696d657320697320747275652e220a131c013d232ccb0a0087ffffffff7f011b00582d], .failsAt 0, .exactly (b 0 0)⟩ : Vector).check

end Vcd.Vectors.Standard
