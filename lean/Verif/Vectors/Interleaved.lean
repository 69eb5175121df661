import Verif.Vectors.Check

/-!
# The tests of src/vcdecoder3_test.cc as expectations on the model

Tests run when the module is compiled, not proofs. Left out: tests that place buffers next to unmapped pages. The tests
that alter or cut a file at every position are in `Verif.Vectors.Loops`.
-/

namespace Vcd.Vectors.Interleaved

/-- `kDictionary` (src/vcdecoder_test.cc:41-44). -/
def dictionary : Bytes :=
  b 159 0x224a7573742074686520706c61636520666f72206120536e61726b2122207468652042656c6c6d616e2063726965642c0a4173206865206c616e646564206869732063726577207769746820636172653b0a537570706f7274696e672065616368206d616e206f6e2074686520746f70206f662074686520746964650a427920612066696e67657220656e7477696e656420696e2068697320686169722e0a

/-! `VCDiffInterleavedDecoderTest.DecodeHeaderOnly` -/
#guard (⟨[], dictionary, [b 5 0xd6c3c45300], .accepted true, .exactly (b 0 0)⟩ : Vector).check

/-! `VCDiffInterleavedDecoderTest.PartialHeaderNotEnough` -/
#guard (⟨[], dictionary, [b 3 0xd6c3c4], .accepted false, .exactly (b 0 0)⟩ : Vector).check

/-! `VCDiffInterleavedDecoderTest.BadMagicNumber` -/
#guard (⟨[], dictionary, [b 131 0xd6d1c4530001811f0079813200007300131c00013d2049206861766520736169642069742074776963653a0a5468617420616c6f6e652073686f756c6420656e636f75726167652074686520637265772e0a232c58cb68722d0a57686174204920746500026c011b20796f752074687265652074696d657320697320747275652e220a], .failsAt 0, .exactly (b 0 0)⟩ : Vector).check

/-! `VCDiffInterleavedDecoderTest.BadVersionNumber` -/
#guard (⟨[], dictionary, [b 131 0xd6c3c4010001811f0079813200007300131c00013d2049206861766520736169642069742074776963653a0a5468617420616c6f6e652073686f756c6420656e636f75726167652074686520637265772e0a232c58cb68722d0a57686174204920746500026c011b20796f752074687265652074696d657320697320747275652e220a], .failsAt 0, .exactly (b 0 0)⟩ : Vector).check

/-! `VCDiffInterleavedDecoderTest.SecondaryCompressionNotSupported` -/
#guard (⟨[], dictionary, [b 131 0xd6c3c4530101811f0079813200007300131c00013d2049206861766520736169642069742074776963653a0a5468617420616c6f6e652073686f756c6420656e636f75726167652074686520637265772e0a232c58cb68722d0a57686174204920746500026c011b20796f752074687265652074696d657320697320747275652e220a], .failsAt 0, .exactly (b 0 0)⟩ : Vector).check

/-! `VCDiffInterleavedDecoderTest.Decode` -/
#guard (⟨[], dictionary, [b 131 0xd6c3c4530001811f0079813200007300131c00013d2049206861766520736169642069742074776963653a0a5468617420616c6f6e652073686f756c6420656e636f75726167652074686520637265772e0a232c58cb68722d0a57686174204920746500026c011b20796f752074687265652074696d657320697320747275652e220a], .accepted true, .exactly (b 178 0x224a7573742074686520706c61636520666f72206120536e61726b212049206861766520736169642069742074776963653a0a5468617420616c6f6e652073686f756c6420656e636f75726167652074686520637265772e0a4a7573742074686520706c61636520666f72206120536e61726b21204920686176652073616964206974207468726963653a0a5768617420492074656c6c20796f752074687265652074696d657320697320747275652e220a)⟩ : Vector).check

/-! `VCDiffInterleavedDecoderTest.DecodeWithChecksum` -/
#guard (⟨[], dictionary, [b 136 0xd6c3c4530005811f007e81320000730084c4b8f930131c00013d2049206861766520736169642069742074776963653a0a5468617420616c6f6e652073686f756c6420656e636f75726167652074686520637265772e0a232c58cb68722d0a57686174204920746500026c011b20796f752074687265652074696d657320697320747275652e220a], .accepted true, .exactly (b 178 0x224a7573742074686520706c61636520666f72206120536e61726b212049206861766520736169642069742074776963653a0a5468617420616c6f6e652073686f756c6420656e636f75726167652074686520637265772e0a4a7573742074686520706c61636520666f72206120536e61726b21204920686176652073616964206974207468726963653a0a5768617420492074656c6c20796f752074687265652074696d657320697320747275652e220a)⟩ : Vector).check

/-! `VCDiffInterleavedDecoderTest.ChecksumDoesNotMatch` -/
#guard (⟨[], dictionary, [b 135 0xd6c3c4530005811f007d81320000730085ebb72d131c00013d2049206861766520736169642069742074776963653a0a5468617420616c6f6e652073686f756c6420656e636f75726167652074686520637265772e0a232c58cb68722d0a57686174204920746500026c011b20796f752074687265652074696d657320697320747275652e220a], .failsAt 0, .exactly (b 0 0)⟩ : Vector).check

/-! `VCDiffInterleavedDecoderTest.ChecksumIsInvalid64BitVarint` -/
#guard (⟨[], dictionary, [b 142 0xd6c3c4530005811f00810381320000730081808080808080808000131c00013d2049206861766520736169642069742074776963653a0a5468617420616c6f6e652073686f756c6420656e636f75726167652074686520637265772e0a232c58cb68722d0a57686174204920746500026c011b20796f752074687265652074696d657320697320747275652e220a], .failsAt 0, .exactly (b 0 0)⟩ : Vector).check

/-! `VCDiffInterleavedDecoderTest.FinishAfterDecodingPartialWindow` -/
#guard (⟨[], dictionary, [b 130 0xd6c3c4530001811f0079813200007300131c00013d2049206861766520736169642069742074776963653a0a5468617420616c6f6e652073686f756c6420656e636f75726167652074686520637265772e0a232c58cb68722d0a57686174204920746500026c011b20796f752074687265652074696d657320697320747275652e22], .accepted false, .atMost 178⟩ : Vector).check

/-! `VCDiffInterleavedDecoderTest.FinishAfterDecodingPartialWindowHeader` -/
#guard (⟨[], dictionary, [b 15 0xd6c3c4530001811f00798132000073], .accepted false, .atMost 178⟩ : Vector).check

/-! `VCDiffInterleavedDecoderTest.TargetMatchesWindowSizeLimit` -/
#guard (⟨[.setMaxWin 178], dictionary, [b 131 0xd6c3c4530001811f0079813200007300131c00013d2049206861766520736169642069742074776963653a0a5468617420616c6f6e652073686f756c6420656e636f75726167652074686520637265772e0a232c58cb68722d0a57686174204920746500026c011b20796f752074687265652074696d657320697320747275652e220a], .accepted true, .exactly (b 178 0x224a7573742074686520706c61636520666f72206120536e61726b212049206861766520736169642069742074776963653a0a5468617420616c6f6e652073686f756c6420656e636f75726167652074686520637265772e0a4a7573742074686520706c61636520666f72206120536e61726b21204920686176652073616964206974207468726963653a0a5768617420492074656c6c20796f752074687265652074696d657320697320747275652e220a)⟩ : Vector).check

/-! `VCDiffInterleavedDecoderTest.TargetMatchesFileSizeLimit` -/
#guard (⟨[.setMaxFile 178], dictionary, [b 131 0xd6c3c4530001811f0079813200007300131c00013d2049206861766520736169642069742074776963653a0a5468617420616c6f6e652073686f756c6420656e636f75726167652074686520637265772e0a232c58cb68722d0a57686174204920746500026c011b20796f752074687265652074696d657320697320747275652e220a], .accepted true, .exactly (b 178 0x224a7573742074686520706c61636520666f72206120536e61726b212049206861766520736169642069742074776963653a0a5468617420616c6f6e652073686f756c6420656e636f75726167652074686520637265772e0a4a7573742074686520706c61636520666f72206120536e61726b21204920686176652073616964206974207468726963653a0a5768617420492074656c6c20796f752074687265652074696d657320697320747275652e220a)⟩ : Vector).check

/-! `VCDiffInterleavedDecoderTest.TargetExceedsWindowSizeLimit` -/
#guard (⟨[.setMaxWin 177], dictionary, [b 131 0xd6c3c4530001811f0079813200007300131c00013d2049206861766520736169642069742074776963653a0a5468617420616c6f6e652073686f756c6420656e636f75726167652074686520637265772e0a232c58cb68722d0a57686174204920746500026c011b20796f752074687265652074696d657320697320747275652e220a], .failsAt 0, .exactly (b 0 0)⟩ : Vector).check

/-! `VCDiffInterleavedDecoderTest.TargetExceedsFileSizeLimit` -/
#guard (⟨[.setMaxFile 177], dictionary, [b 131 0xd6c3c4530001811f0079813200007300131c00013d2049206861766520736169642069742074776963653a0a5468617420616c6f6e652073686f756c6420656e636f75726167652074686520637265772e0a232c58cb68722d0a57686174204920746500026c011b20796f752074687265652074696d657320697320747275652e220a], .failsAt 0, .exactly (b 0 0)⟩ : Vector).check

/-! `VCDiffInterleavedDecoderTest.CopyMoreThanExpectedTarget` -/
#guard (⟨[], dictionary, [b 131 0xd6c3c4530001811f0079813200007300138133013d2049206861766520736169642069742074776963653a0a5468617420616c6f6e652073686f756c6420656e636f75726167652074686520637265772e0a232c58cb68722d0a57686174204920746500026c011b20796f752074687265652074696d657320697320747275652e220a], .failsAt 0, .exactly (b 0 0)⟩ : Vector).check

/-! `VCDiffInterleavedDecoderTest.CopySizeZero` -/
#guard (⟨[], dictionary, [b 131 0xd6c3c4530001811f0079813200007300130000013d2049206861766520736169642069742074776963653a0a5468617420616c6f6e652073686f756c6420656e636f75726167652074686520637265772e0a232c58cb68722d0a57686174204920746500026c011b20796f752074687265652074696d657320697320747275652e220a], .failsAt 0, .exactly (b 0 0)⟩ : Vector).check

/-! `VCDiffInterleavedDecoderTest.CopySizeTooLargeByOne` -/
#guard (⟨[], dictionary, [b 131 0xd6c3c4530001811f0079813200007300131d00013d2049206861766520736169642069742074776963653a0a5468617420616c6f6e652073686f756c6420656e636f75726167652074686520637265772e0a232c58cb68722d0a57686174204920746500026c011b20796f752074687265652074696d657320697320747275652e220a], .failsAt 0, .exactly (b 0 0)⟩ : Vector).check

/-! `VCDiffInterleavedDecoderTest.CopySizeTooSmallByOne` -/
#guard (⟨[], dictionary, [b 131 0xd6c3c4530001811f0079813200007300131b00013d2049206861766520736169642069742074776963653a0a5468617420616c6f6e652073686f756c6420656e636f75726167652074686520637265772e0a232c58cb68722d0a57686174204920746500026c011b20796f752074687265652074696d657320697320747275652e220a], .failsAt 0, .exactly (b 0 0)⟩ : Vector).check

/-! `VCDiffInterleavedDecoderTest.CopySizeMaxInt` -/
#guard (⟨[], dictionary, [b 135 0xd6c3c4530001811f00798132000073001387ffffff7f00013d2049206861766520736169642069742074776963653a0a5468617420616c6f6e652073686f756c6420656e636f75726167652074686520637265772e0a232c58cb68722d0a57686174204920746500026c011b20796f752074687265652074696d657320697320747275652e220a], .failsAt 0, .exactly (b 0 0)⟩ : Vector).check

/-! `VCDiffInterleavedDecoderTest.CopySizeNegative` -/
#guard (⟨[], dictionary, [b 135 0xd6c3c4530001811f007981320000730013888080800000013d2049206861766520736169642069742074776963653a0a5468617420616c6f6e652073686f756c6420656e636f75726167652074686520637265772e0a232c58cb68722d0a57686174204920746500026c011b20796f752074687265652074696d657320697320747275652e220a], .failsAt 0, .exactly (b 0 0)⟩ : Vector).check

/-! `VCDiffInterleavedDecoderTest.CopySizeInvalid` -/
#guard (⟨[], dictionary, [b 136 0xd6c3c4530001811f00798132000073001387ffffffff7f00013d2049206861766520736169642069742074776963653a0a5468617420616c6f6e652073686f756c6420656e636f75726167652074686520637265772e0a232c58cb68722d0a57686174204920746500026c011b20796f752074687265652074696d657320697320747275652e220a], .failsAt 0, .exactly (b 0 0)⟩ : Vector).check

/-! `VCDiffInterleavedDecoderTest.CopyAddressBeyondHereAddress` -/
#guard (⟨[], dictionary, [b 131 0xd6c3c4530001811f0079813200007300131c811f3d2049206861766520736169642069742074776963653a0a5468617420616c6f6e652073686f756c6420656e636f75726167652074686520637265772e0a232c58cb68722d0a57686174204920746500026c011b20796f752074687265652074696d657320697320747275652e220a], .failsAt 0, .exactly (b 0 0)⟩ : Vector).check

/-! `VCDiffInterleavedDecoderTest.CopyAddressMaxInt` -/
#guard (⟨[], dictionary, [b 135 0xd6c3c4530001811f0079813200007300131c87ffffff7f013d2049206861766520736169642069742074776963653a0a5468617420616c6f6e652073686f756c6420656e636f75726167652074686520637265772e0a232c58cb68722d0a57686174204920746500026c011b20796f752074687265652074696d657320697320747275652e220a], .failsAt 0, .exactly (b 0 0)⟩ : Vector).check

/-! `VCDiffInterleavedDecoderTest.CopyAddressNegative` -/
#guard (⟨[], dictionary, [b 135 0xd6c3c4530001811f0079813200007300131c8880808000013d2049206861766520736169642069742074776963653a0a5468617420616c6f6e652073686f756c6420656e636f75726167652074686520637265772e0a232c58cb68722d0a57686174204920746500026c011b20796f752074687265652074696d657320697320747275652e220a], .failsAt 0, .exactly (b 0 0)⟩ : Vector).check

/-! `VCDiffInterleavedDecoderTest.CopyAddressInvalid` -/
#guard (⟨[], dictionary, [b 136 0xd6c3c4530001811f0079813200007300131c87ffffffff7f013d2049206861766520736169642069742074776963653a0a5468617420616c6f6e652073686f756c6420656e636f75726167652074686520637265772e0a232c58cb68722d0a57686174204920746500026c011b20796f752074687265652074696d657320697320747275652e220a], .failsAt 0, .exactly (b 0 0)⟩ : Vector).check

/-! `VCDiffInterleavedDecoderTest.AddMoreThanExpectedTarget` -/
#guard (⟨[], dictionary, [b 131 0xd6c3c4530001811f0079813200007300131c0001813349206861766520736169642069742074776963653a0a5468617420616c6f6e652073686f756c6420656e636f75726167652074686520637265772e0a232c58cb68722d0a57686174204920746500026c011b20796f752074687265652074696d657320697320747275652e220a], .failsAt 0, .exactly (b 0 0)⟩ : Vector).check

/-! `VCDiffInterleavedDecoderTest.AddSizeZero` -/
#guard (⟨[], dictionary, [b 131 0xd6c3c4530001811f0079813200007300131c0001002049206861766520736169642069742074776963653a0a5468617420616c6f6e652073686f756c6420656e636f75726167652074686520637265772e0a232c58cb68722d0a57686174204920746500026c011b20796f752074687265652074696d657320697320747275652e220a], .failsAt 0, .exactly (b 0 0)⟩ : Vector).check

/-! `VCDiffInterleavedDecoderTest.AddSizeTooLargeByOne` -/
#guard (⟨[], dictionary, [b 131 0xd6c3c4530001811f0079813200007300131c00013e2049206861766520736169642069742074776963653a0a5468617420616c6f6e652073686f756c6420656e636f75726167652074686520637265772e0a232c58cb68722d0a57686174204920746500026c011b20796f752074687265652074696d657320697320747275652e220a], .failsAt 0, .exactly (b 0 0)⟩ : Vector).check

/-! `VCDiffInterleavedDecoderTest.AddSizeTooSmallByOne` -/
#guard (⟨[], dictionary, [b 131 0xd6c3c4530001811f0079813200007300131c00013c2049206861766520736169642069742074776963653a0a5468617420616c6f6e652073686f756c6420656e636f75726167652074686520637265772e0a232c58cb68722d0a57686174204920746500026c011b20796f752074687265652074696d657320697320747275652e220a], .failsAt 0, .exactly (b 0 0)⟩ : Vector).check

/-! `VCDiffInterleavedDecoderTest.AddSizeMaxInt` -/
#guard (⟨[], dictionary, [b 135 0xd6c3c4530001811f0079813200007300131c000187ffffff7f2049206861766520736169642069742074776963653a0a5468617420616c6f6e652073686f756c6420656e636f75726167652074686520637265772e0a232c58cb68722d0a57686174204920746500026c011b20796f752074687265652074696d657320697320747275652e220a], .failsAt 0, .exactly (b 0 0)⟩ : Vector).check

/-! `VCDiffInterleavedDecoderTest.AddSizeNegative` -/
#guard (⟨[], dictionary, [b 135 0xd6c3c4530001811f0079813200007300131c000188808080002049206861766520736169642069742074776963653a0a5468617420616c6f6e652073686f756c6420656e636f75726167652074686520637265772e0a232c58cb68722d0a57686174204920746500026c011b20796f752074687265652074696d657320697320747275652e220a], .failsAt 0, .exactly (b 0 0)⟩ : Vector).check

/-! `VCDiffInterleavedDecoderTest.AddSizeInvalid` -/
#guard (⟨[], dictionary, [b 136 0xd6c3c4530001811f0079813200007300131c000187ffffffff7f2049206861766520736169642069742074776963653a0a5468617420616c6f6e652073686f756c6420656e636f75726167652074686520637265772e0a232c58cb68722d0a57686174204920746500026c011b20796f752074687265652074696d657320697320747275652e220a], .failsAt 0, .exactly (b 0 0)⟩ : Vector).check

/-! `VCDiffInterleavedDecoderTest.RunMoreThanExpectedTarget` -/
#guard (⟨[], dictionary, [b 131 0xd6c3c4530001811f0079813200007300131c00013d2049206861766520736169642069742074776963653a0a5468617420616c6f6e652073686f756c6420656e636f75726167652074686520637265772e0a232c58cb68722d0a576861742049207465008133011b20796f752074687265652074696d657320697320747275652e220a], .failsAt 0, .exactly (b 0 0)⟩ : Vector).check

/-! `VCDiffInterleavedDecoderTest.RunSizeZero` -/
#guard (⟨[], dictionary, [b 131 0xd6c3c4530001811f0079813200007300131c00013d2049206861766520736169642069742074776963653a0a5468617420616c6f6e652073686f756c6420656e636f75726167652074686520637265772e0a232c58cb68722d0a57686174204920746500006c011b20796f752074687265652074696d657320697320747275652e220a], .failsAt 0, .exactly (b 0 0)⟩ : Vector).check

/-! `VCDiffInterleavedDecoderTest.RunSizeTooLargeByOne` -/
#guard (⟨[], dictionary, [b 131 0xd6c3c4530001811f0079813200007300131c00013d2049206861766520736169642069742074776963653a0a5468617420616c6f6e652073686f756c6420656e636f75726167652074686520637265772e0a232c58cb68722d0a57686174204920746500036c011b20796f752074687265652074696d657320697320747275652e220a], .failsAt 0, .exactly (b 0 0)⟩ : Vector).check

/-! `VCDiffInterleavedDecoderTest.RunSizeTooSmallByOne` -/
#guard (⟨[], dictionary, [b 131 0xd6c3c4530001811f0079813200007300131c00013d2049206861766520736169642069742074776963653a0a5468617420616c6f6e652073686f756c6420656e636f75726167652074686520637265772e0a232c58cb68722d0a57686174204920746500016c011b20796f752074687265652074696d657320697320747275652e220a], .failsAt 0, .exactly (b 0 0)⟩ : Vector).check

/-! `VCDiffInterleavedDecoderTest.RunSizeMaxInt` -/
#guard (⟨[], dictionary, [b 135 0xd6c3c4530001811f0079813200007300131c00013d2049206861766520736169642069742074776963653a0a5468617420616c6f6e652073686f756c6420656e636f75726167652074686520637265772e0a232c58cb68722d0a5768617420492074650087ffffff7f6c011b20796f752074687265652074696d657320697320747275652e220a], .failsAt 0, .exactly (b 0 0)⟩ : Vector).check

/-! `VCDiffInterleavedDecoderTest.RunSizeNegative` -/
#guard (⟨[], dictionary, [b 135 0xd6c3c4530001811f0079813200007300131c00013d2049206861766520736169642069742074776963653a0a5468617420616c6f6e652073686f756c6420656e636f75726167652074686520637265772e0a232c58cb68722d0a5768617420492074650088808080006c011b20796f752074687265652074696d657320697320747275652e220a], .failsAt 0, .exactly (b 0 0)⟩ : Vector).check

/-! `VCDiffInterleavedDecoderTest.RunSizeInvalid` -/
#guard (⟨[], dictionary, [b 136 0xd6c3c4530001811f0079813200007300131c00013d2049206861766520736169642069742074776963653a0a5468617420616c6f6e652073686f756c6420656e636f75726167652074686520637265772e0a232c58cb68722d0a5768617420492074650087ffffffff7f6c011b20796f752074687265652074696d657320697320747275652e220a], .failsAt 0, .exactly (b 0 0)⟩ : Vector).check

/-! `VCDiffInterleavedDecoderTestByteByByte.DecodeHeaderOnly` -/
#guard (⟨[], dictionary, bytewise (b 5 0xd6c3c45300), .accepted true, .exactly (b 0 0)⟩ : Vector).check

/-! `VCDiffInterleavedDecoderTestByteByByte.PartialHeaderNotEnough` -/
#guard (⟨[], dictionary, [b 1 0xd6, b 1 0xc3, b 1 0xc4], .accepted false, .exactly (b 0 0)⟩ : Vector).check

/-! `VCDiffInterleavedDecoderTestByteByByte.BadMagicNumber` -/
#guard (⟨[], dictionary, bytewise (b 131 0xd6d1c4530001811f0079813200007300131c00013d2049206861766520736169642069742074776963653a0a5468617420616c6f6e652073686f756c6420656e636f75726167652074686520637265772e0a232c58cb68722d0a57686174204920746500026c011b20796f752074687265652074696d657320697320747275652e220a), .failsAt 1, .exactly (b 0 0)⟩ : Vector).check

/-! `VCDiffInterleavedDecoderTestByteByByte.BadVersionNumber` -/
#guard (⟨[], dictionary, bytewise (b 131 0xd6c3c4010001811f0079813200007300131c00013d2049206861766520736169642069742074776963653a0a5468617420616c6f6e652073686f756c6420656e636f75726167652074686520637265772e0a232c58cb68722d0a57686174204920746500026c011b20796f752074687265652074696d657320697320747275652e220a), .failsAt 3, .exactly (b 0 0)⟩ : Vector).check

/-! `VCDiffInterleavedDecoderTestByteByByte.SecondaryCompressionNotSupported` -/
#guard (⟨[], dictionary, bytewise (b 131 0xd6c3c4530101811f0079813200007300131c00013d2049206861766520736169642069742074776963653a0a5468617420616c6f6e652073686f756c6420656e636f75726167652074686520637265772e0a232c58cb68722d0a57686174204920746500026c011b20796f752074687265652074696d657320697320747275652e220a), .failsAt 4, .exactly (b 0 0)⟩ : Vector).check

/-! `VCDiffInterleavedDecoderTestByteByByte.Decode` -/
#guard (⟨[], dictionary, bytewise (b 131 0xd6c3c4530001811f0079813200007300131c00013d2049206861766520736169642069742074776963653a0a5468617420616c6f6e652073686f756c6420656e636f75726167652074686520637265772e0a232c58cb68722d0a57686174204920746500026c011b20796f752074687265652074696d657320697320747275652e220a), .accepted true, .exactly (b 178 0x224a7573742074686520706c61636520666f72206120536e61726b212049206861766520736169642069742074776963653a0a5468617420616c6f6e652073686f756c6420656e636f75726167652074686520637265772e0a4a7573742074686520706c61636520666f72206120536e61726b21204920686176652073616964206974207468726963653a0a5768617420492074656c6c20796f752074687265652074696d657320697320747275652e220a)⟩ : Vector).check

/-! `VCDiffInterleavedDecoderTestByteByByte.DecodeWithChecksum` -/
#guard (⟨[], dictionary, bytewise (b 136 0xd6c3c4530005811f007e81320000730084c4b8f930131c00013d2049206861766520736169642069742074776963653a0a5468617420616c6f6e652073686f756c6420656e636f75726167652074686520637265772e0a232c58cb68722d0a57686174204920746500026c011b20796f752074687265652074696d657320697320747275652e220a), .accepted true, .exactly (b 178 0x224a7573742074686520706c61636520666f72206120536e61726b212049206861766520736169642069742074776963653a0a5468617420616c6f6e652073686f756c6420656e636f75726167652074686520637265772e0a4a7573742074686520706c61636520666f72206120536e61726b21204920686176652073616964206974207468726963653a0a5768617420492074656c6c20796f752074687265652074696d657320697320747275652e220a)⟩ : Vector).check

/-! `VCDiffInterleavedDecoderTestByteByByte.ChecksumDoesNotMatch` -/
#guard (⟨[], dictionary, bytewise (b 135 0xd6c3c4530005811f007d81320000730085ebb72d131c00013d2049206861766520736169642069742074776963653a0a5468617420616c6f6e652073686f756c6420656e636f75726167652074686520637265772e0a232c58cb68722d0a57686174204920746500026c011b20796f752074687265652074696d657320697320747275652e220a), .failsAt 134, .atMost 178⟩ : Vector).check

/-! `VCDiffInterleavedDecoderTestByteByByte.ChecksumIsInvalid64BitVarint` -/
#guard (⟨[], dictionary, bytewise (b 142 0xd6c3c4530005811f00810381320000730081808080808080808000131c00013d2049206861766520736169642069742074776963653a0a5468617420616c6f6e652073686f756c6420656e636f75726167652074686520637265772e0a232c58cb68722d0a57686174204920746500026c011b20796f752074687265652074696d657320697320747275652e220a), .failsAt 25, .atMost 178⟩ : Vector).check

/-! `VCDiffInterleavedDecoderTestByteByByte.TargetMatchesWindowSizeLimit` -/
#guard (⟨[.setMaxWin 178], dictionary, bytewise (b 131 0xd6c3c4530001811f0079813200007300131c00013d2049206861766520736169642069742074776963653a0a5468617420616c6f6e652073686f756c6420656e636f75726167652074686520637265772e0a232c58cb68722d0a57686174204920746500026c011b20796f752074687265652074696d657320697320747275652e220a), .accepted true, .exactly (b 178 0x224a7573742074686520706c61636520666f72206120536e61726b212049206861766520736169642069742074776963653a0a5468617420616c6f6e652073686f756c6420656e636f75726167652074686520637265772e0a4a7573742074686520706c61636520666f72206120536e61726b21204920686176652073616964206974207468726963653a0a5768617420492074656c6c20796f752074687265652074696d657320697320747275652e220a)⟩ : Vector).check

/-! `VCDiffInterleavedDecoderTestByteByByte.TargetMatchesFileSizeLimit` -/
#guard (⟨[.setMaxFile 178], dictionary, bytewise (b 131 0xd6c3c4530001811f0079813200007300131c00013d2049206861766520736169642069742074776963653a0a5468617420616c6f6e652073686f756c6420656e636f75726167652074686520637265772e0a232c58cb68722d0a57686174204920746500026c011b20796f752074687265652074696d657320697320747275652e220a), .accepted true, .exactly (b 178 0x224a7573742074686520706c61636520666f72206120536e61726b212049206861766520736169642069742074776963653a0a5468617420616c6f6e652073686f756c6420656e636f75726167652074686520637265772e0a4a7573742074686520706c61636520666f72206120536e61726b21204920686176652073616964206974207468726963653a0a5768617420492074656c6c20796f752074687265652074696d657320697320747275652e220a)⟩ : Vector).check

/-! `VCDiffInterleavedDecoderTestByteByByte.TargetExceedsWindowSizeLimit` -/
#guard (⟨[.setMaxWin 177], dictionary, bytewise (b 131 0xd6c3c4530001811f0079813200007300131c00013d2049206861766520736169642069742074776963653a0a5468617420616c6f6e652073686f756c6420656e636f75726167652074686520637265772e0a232c58cb68722d0a57686174204920746500026c011b20796f752074687265652074696d657320697320747275652e220a), .failsBy 130, .exactly (b 0 0)⟩ : Vector).check

/-! `VCDiffInterleavedDecoderTestByteByByte.TargetExceedsFileSizeLimit` -/
#guard (⟨[.setMaxFile 177], dictionary, bytewise (b 131 0xd6c3c4530001811f0079813200007300131c00013d2049206861766520736169642069742074776963653a0a5468617420616c6f6e652073686f756c6420656e636f75726167652074686520637265772e0a232c58cb68722d0a57686174204920746500026c011b20796f752074687265652074696d657320697320747275652e220a), .failsBy 130, .exactly (b 0 0)⟩ : Vector).check

/-! `VCDiffInterleavedDecoderTestByteByByte.CopyInstructionsShouldFailIfNoSourceSegment` -/
#guard (⟨[], dictionary, bytewise (b 128 0xd6c3c453000079813200007300131c00013d2049206861766520736169642069742074776963653a0a5468617420616c6f6e652073686f756c6420656e636f75726167652074686520637265772e0a232c58cb68722d0a57686174204920746500026c011b20796f752074687265652074696d657320697320747275652e220a), .failsAt 15, .exactly (b 0 0)⟩ : Vector).check

/-! `VCDiffInterleavedDecoderTestByteByByte.CopyMoreThanExpectedTarget` -/
#guard (⟨[], dictionary, bytewise (b 131 0xd6c3c4530001811f0079813200007300138133013d2049206861766520736169642069742074776963653a0a5468617420616c6f6e652073686f756c6420656e636f75726167652074686520637265772e0a232c58cb68722d0a57686174204920746500026c011b20796f752074687265652074696d657320697320747275652e220a), .failsAt 18, .atMost 178⟩ : Vector).check

/-! `VCDiffInterleavedDecoderTestByteByByte.CopySizeZero` -/
#guard (⟨[], dictionary, bytewise (b 131 0xd6c3c4530001811f0079813200007300130000013d2049206861766520736169642069742074776963653a0a5468617420616c6f6e652073686f756c6420656e636f75726167652074686520637265772e0a232c58cb68722d0a57686174204920746500026c011b20796f752074687265652074696d657320697320747275652e220a), .failsBy 130, .atMost 178⟩ : Vector).check

/-! `VCDiffInterleavedDecoderTestByteByByte.CopySizeTooLargeByOne` -/
#guard (⟨[], dictionary, bytewise (b 131 0xd6c3c4530001811f0079813200007300131d00013d2049206861766520736169642069742074776963653a0a5468617420616c6f6e652073686f756c6420656e636f75726167652074686520637265772e0a232c58cb68722d0a57686174204920746500026c011b20796f752074687265652074696d657320697320747275652e220a), .failsBy 130, .atMost 178⟩ : Vector).check

/-! `VCDiffInterleavedDecoderTestByteByByte.CopySizeTooSmallByOne` -/
#guard (⟨[], dictionary, bytewise (b 131 0xd6c3c4530001811f0079813200007300131b00013d2049206861766520736169642069742074776963653a0a5468617420616c6f6e652073686f756c6420656e636f75726167652074686520637265772e0a232c58cb68722d0a57686174204920746500026c011b20796f752074687265652074696d657320697320747275652e220a), .failsBy 130, .atMost 178⟩ : Vector).check

/-! `VCDiffInterleavedDecoderTestByteByByte.CopySizeMaxInt` -/
#guard (⟨[], dictionary, bytewise (b 135 0xd6c3c4530001811f00798132000073001387ffffff7f00013d2049206861766520736169642069742074776963653a0a5468617420616c6f6e652073686f756c6420656e636f75726167652074686520637265772e0a232c58cb68722d0a57686174204920746500026c011b20796f752074687265652074696d657320697320747275652e220a), .failsAt 21, .atMost 178⟩ : Vector).check

/-! `VCDiffInterleavedDecoderTestByteByByte.CopySizeNegative` -/
#guard (⟨[], dictionary, bytewise (b 135 0xd6c3c4530001811f007981320000730013888080800000013d2049206861766520736169642069742074776963653a0a5468617420616c6f6e652073686f756c6420656e636f75726167652074686520637265772e0a232c58cb68722d0a57686174204920746500026c011b20796f752074687265652074696d657320697320747275652e220a), .failsAt 20, .atMost 178⟩ : Vector).check

/-! `VCDiffInterleavedDecoderTestByteByByte.CopySizeInvalid` -/
#guard (⟨[], dictionary, bytewise (b 136 0xd6c3c4530001811f00798132000073001387ffffffff7f00013d2049206861766520736169642069742074776963653a0a5468617420616c6f6e652073686f756c6420656e636f75726167652074686520637265772e0a232c58cb68722d0a57686174204920746500026c011b20796f752074687265652074696d657320697320747275652e220a), .failsAt 21, .atMost 178⟩ : Vector).check

/-! `VCDiffInterleavedDecoderTestByteByByte.CopyAddressBeyondHereAddress` -/
#guard (⟨[], dictionary, bytewise (b 131 0xd6c3c4530001811f0079813200007300131c811f3d2049206861766520736169642069742074776963653a0a5468617420616c6f6e652073686f756c6420656e636f75726167652074686520637265772e0a232c58cb68722d0a57686174204920746500026c011b20796f752074687265652074696d657320697320747275652e220a), .failsAt 19, .atMost 178⟩ : Vector).check

/-! `VCDiffInterleavedDecoderTestByteByByte.CopyAddressMaxInt` -/
#guard (⟨[], dictionary, bytewise (b 135 0xd6c3c4530001811f0079813200007300131c87ffffff7f013d2049206861766520736169642069742074776963653a0a5468617420616c6f6e652073686f756c6420656e636f75726167652074686520637265772e0a232c58cb68722d0a57686174204920746500026c011b20796f752074687265652074696d657320697320747275652e220a), .failsAt 22, .atMost 178⟩ : Vector).check

/-! `VCDiffInterleavedDecoderTestByteByByte.CopyAddressNegative` -/
#guard (⟨[], dictionary, bytewise (b 135 0xd6c3c4530001811f0079813200007300131c8880808000013d2049206861766520736169642069742074776963653a0a5468617420616c6f6e652073686f756c6420656e636f75726167652074686520637265772e0a232c58cb68722d0a57686174204920746500026c011b20796f752074687265652074696d657320697320747275652e220a), .failsAt 21, .atMost 178⟩ : Vector).check

/-! `VCDiffInterleavedDecoderTestByteByByte.CopyAddressInvalid` -/
#guard (⟨[], dictionary, bytewise (b 136 0xd6c3c4530001811f0079813200007300131c87ffffffff7f013d2049206861766520736169642069742074776963653a0a5468617420616c6f6e652073686f756c6420656e636f75726167652074686520637265772e0a232c58cb68722d0a57686174204920746500026c011b20796f752074687265652074696d657320697320747275652e220a), .failsAt 22, .atMost 178⟩ : Vector).check

/-! `VCDiffInterleavedDecoderTestByteByByte.AddMoreThanExpectedTarget` -/
#guard (⟨[], dictionary, bytewise (b 131 0xd6c3c4530001811f0079813200007300131c0001813349206861766520736169642069742074776963653a0a5468617420616c6f6e652073686f756c6420656e636f75726167652074686520637265772e0a232c58cb68722d0a57686174204920746500026c011b20796f752074687265652074696d657320697320747275652e220a), .failsAt 21, .atMost 178⟩ : Vector).check

/-! `VCDiffInterleavedDecoderTestByteByByte.AddSizeZero` -/
#guard (⟨[], dictionary, bytewise (b 131 0xd6c3c4530001811f0079813200007300131c0001002049206861766520736169642069742074776963653a0a5468617420616c6f6e652073686f756c6420656e636f75726167652074686520637265772e0a232c58cb68722d0a57686174204920746500026c011b20796f752074687265652074696d657320697320747275652e220a), .failsBy 130, .atMost 178⟩ : Vector).check

/-! `VCDiffInterleavedDecoderTestByteByByte.AddSizeTooLargeByOne` -/
#guard (⟨[], dictionary, bytewise (b 131 0xd6c3c4530001811f0079813200007300131c00013e2049206861766520736169642069742074776963653a0a5468617420616c6f6e652073686f756c6420656e636f75726167652074686520637265772e0a232c58cb68722d0a57686174204920746500026c011b20796f752074687265652074696d657320697320747275652e220a), .failsBy 130, .atMost 178⟩ : Vector).check

/-! `VCDiffInterleavedDecoderTestByteByByte.AddSizeTooSmallByOne` -/
#guard (⟨[], dictionary, bytewise (b 131 0xd6c3c4530001811f0079813200007300131c00013c2049206861766520736169642069742074776963653a0a5468617420616c6f6e652073686f756c6420656e636f75726167652074686520637265772e0a232c58cb68722d0a57686174204920746500026c011b20796f752074687265652074696d657320697320747275652e220a), .failsBy 130, .atMost 178⟩ : Vector).check

/-! `VCDiffInterleavedDecoderTestByteByByte.AddSizeMaxInt` -/
#guard (⟨[], dictionary, bytewise (b 135 0xd6c3c4530001811f0079813200007300131c000187ffffff7f2049206861766520736169642069742074776963653a0a5468617420616c6f6e652073686f756c6420656e636f75726167652074686520637265772e0a232c58cb68722d0a57686174204920746500026c011b20796f752074687265652074696d657320697320747275652e220a), .failsAt 24, .atMost 178⟩ : Vector).check

/-! `VCDiffInterleavedDecoderTestByteByByte.AddSizeNegative` -/
#guard (⟨[], dictionary, bytewise (b 135 0xd6c3c4530001811f0079813200007300131c000188808080002049206861766520736169642069742074776963653a0a5468617420616c6f6e652073686f756c6420656e636f75726167652074686520637265772e0a232c58cb68722d0a57686174204920746500026c011b20796f752074687265652074696d657320697320747275652e220a), .failsAt 23, .atMost 178⟩ : Vector).check

/-! `VCDiffInterleavedDecoderTestByteByByte.AddSizeInvalid` -/
#guard (⟨[], dictionary, bytewise (b 136 0xd6c3c4530001811f0079813200007300131c000187ffffffff7f2049206861766520736169642069742074776963653a0a5468617420616c6f6e652073686f756c6420656e636f75726167652074686520637265772e0a232c58cb68722d0a57686174204920746500026c011b20796f752074687265652074696d657320697320747275652e220a), .failsAt 24, .atMost 178⟩ : Vector).check

/-! `VCDiffInterleavedDecoderTestByteByByte.RunMoreThanExpectedTarget` -/
#guard (⟨[], dictionary, bytewise (b 131 0xd6c3c4530001811f0079813200007300131c00013d2049206861766520736169642069742074776963653a0a5468617420616c6f6e652073686f756c6420656e636f75726167652074686520637265772e0a232c58cb68722d0a576861742049207465008133011b20796f752074687265652074696d657320697320747275652e220a), .failsAt 101, .atMost 178⟩ : Vector).check

/-! `VCDiffInterleavedDecoderTestByteByByte.RunSizeZero` -/
#guard (⟨[], dictionary, bytewise (b 131 0xd6c3c4530001811f0079813200007300131c00013d2049206861766520736169642069742074776963653a0a5468617420616c6f6e652073686f756c6420656e636f75726167652074686520637265772e0a232c58cb68722d0a57686174204920746500006c011b20796f752074687265652074696d657320697320747275652e220a), .failsBy 130, .atMost 178⟩ : Vector).check

/-! `VCDiffInterleavedDecoderTestByteByByte.RunSizeTooLargeByOne` -/
#guard (⟨[], dictionary, bytewise (b 131 0xd6c3c4530001811f0079813200007300131c00013d2049206861766520736169642069742074776963653a0a5468617420616c6f6e652073686f756c6420656e636f75726167652074686520637265772e0a232c58cb68722d0a57686174204920746500036c011b20796f752074687265652074696d657320697320747275652e220a), .failsBy 130, .atMost 178⟩ : Vector).check

/-! `VCDiffInterleavedDecoderTestByteByByte.RunSizeTooSmallByOne` -/
#guard (⟨[], dictionary, bytewise (b 131 0xd6c3c4530001811f0079813200007300131c00013d2049206861766520736169642069742074776963653a0a5468617420616c6f6e652073686f756c6420656e636f75726167652074686520637265772e0a232c58cb68722d0a57686174204920746500016c011b20796f752074687265652074696d657320697320747275652e220a), .failsBy 130, .atMost 178⟩ : Vector).check

/-! `VCDiffInterleavedDecoderTestByteByByte.RunSizeMaxInt` -/
#guard (⟨[], dictionary, bytewise (b 135 0xd6c3c4530001811f0079813200007300131c00013d2049206861766520736169642069742074776963653a0a5468617420616c6f6e652073686f756c6420656e636f75726167652074686520637265772e0a232c58cb68722d0a5768617420492074650087ffffff7f6c011b20796f752074687265652074696d657320697320747275652e220a), .failsAt 104, .atMost 178⟩ : Vector).check

/-! `VCDiffInterleavedDecoderTestByteByByte.RunSizeNegative` -/
#guard (⟨[], dictionary, bytewise (b 135 0xd6c3c4530001811f0079813200007300131c00013d2049206861766520736169642069742074776963653a0a5468617420616c6f6e652073686f756c6420656e636f75726167652074686520637265772e0a232c58cb68722d0a5768617420492074650088808080006c011b20796f752074687265652074696d657320697320747275652e220a), .failsAt 103, .atMost 178⟩ : Vector).check

/-! `VCDiffInterleavedDecoderTestByteByByte.RunSizeInvalid` -/
#guard (⟨[], dictionary, bytewise (b 136 0xd6c3c4530001811f0079813200007300131c00013d2049206861766520736169642069742074776963653a0a5468617420616c6f6e652073686f756c6420656e636f75726167652074686520637265772e0a232c58cb68722d0a5768617420492074650087ffffffff7f6c011b20796f752074687265652074696d657320697320747275652e220a), .failsAt 104, .atMost 178⟩ : Vector).check

end Vcd.Vectors.Interleaved
