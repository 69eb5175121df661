import Verif.Vectors.CheckEncoder

/-!
# Tests of src/vcencoder_test.cc with exact expectations, on the model

Tests run when the module is compiled, not proofs.
-/

namespace Vcd.Vectors

/-! `VCDiffEncoderTest.EncodeNothingJSON` -/
#guard encoderOutput [] 4 false [] = some []

/-! `VCDiffEncoderTest.EncodeSimpleJSON` -/
#guard encoderOutput (b 160 0x224a7573742074686520706c61636520666f72206120536e61726b2122207468652042656c6c6d616e2063726965642c0a4173206865206c616e646564206869732063726577207769746820636172653b0a537570706f7274696e672065616368206d616e206f6e2074686520746f70206f662074686520746964650a427920612066696e67657220656e7477696e656420696e2068697320686169722e0a00) 4 true [(b 178 0x224a7573742074686520706c61636520666f72206120536e61726b212049206861766520736169642069742074776963653a0a5468617420616c6f6e652073686f756c6420656e636f75726167652074686520637265772e0a4a7573742074686520706c61636520666f72206120536e61726b21204920686176652073616964206974207468726963653a0a5768617420492074656c6c20796f752074687265652074696d657320697320747275652e220a)] = some (b 154 0x5b225c224a7573742074686520706c61636520666f72206120536e61726b212049206861766520736169642069742074776963653a5c6e5468617420616c6f6e652073686f756c6420656e636f75726167652074686520637265772e5c6e222c3136312c34342c2268726963653a5c6e5768617420492074656c6c20796f752074687265652074696d657320697320747275652e5c225c6e225d)

/-! `VCDiffEncoderTest.NonasciiDictionaryWithJSON` -/
#guard encoderOutput (b 5 0x666f6f8000) 4 true [(b 178 0x224a7573742074686520706c61636520666f72206120536e61726b212049206861766520736169642069742074776963653a0a5468617420616c6f6e652073686f756c6420656e636f75726167652074686520637265772e0a4a7573742074686520706c61636520666f72206120536e61726b21204920686176652073616964206974207468726963653a0a5768617420492074656c6c20796f752074687265652074696d657320697320747275652e220a)] = none

/-! `VCDiffEncoderTest.NonasciiTargetWithJSON` -/
#guard encoderOutput (b 160 0x224a7573742074686520706c61636520666f72206120536e61726b2122207468652042656c6c6d616e2063726965642c0a4173206865206c616e646564206869732063726577207769746820636172653b0a537570706f7274696e672065616368206d616e206f6e2074686520746f70206f662074686520746964650a427920612066696e67657220656e7477696e656420696e2068697320686169722e0a00) 4 true [(b 5 0x666f6f8000)] = none

/-! `VCDiffEncoderTest.EncodeFixedChunkSizesJSON` -/
#guard encoderOutput (b 160 0x224a7573742074686520706c61636520666f72206120536e61726b2122207468652042656c6c6d616e2063726965642c0a4173206865206c616e646564206869732063726577207769746820636172653b0a537570706f7274696e672065616368206d616e206f6e2074686520746f70206f662074686520746964650a427920612066696e67657220656e7477696e656420696e2068697320686169722e0a00) 4 true [(b 6 0x224a75737420), (b 6 0x74686520706c), (b 6 0x61636520666f), (b 6 0x72206120536e), (b 6 0x61726b212049), (b 6 0x206861766520), (b 6 0x736169642069), (b 6 0x742074776963), (b 6 0x653a0a546861), (b 6 0x7420616c6f6e), (b 6 0x652073686f75), (b 6 0x6c6420656e63), (b 6 0x6f7572616765), (b 6 0x207468652063), (b 6 0x7265772e0a4a), (b 6 0x757374207468), (b 6 0x6520706c6163), (b 6 0x6520666f7220), (b 6 0x6120536e6172), (b 6 0x6b2120492068), (b 6 0x617665207361), (b 6 0x696420697420), (b 6 0x746872696365), (b 6 0x3a0a57686174), (b 6 0x20492074656c), (b 6 0x6c20796f7520), (b 6 0x746872656520), (b 6 0x74696d657320), (b 6 0x697320747275), (b 4 0x652e220a)] = some (b 275 0x5b225c224a75737420222c2274686520706c222c2261636520666f222c2272206120536e222c2261726b212049222c22206861766520222c22736169642069222c22742074776963222c22653a5c6e546861222c227420616c6f6e222c22652073686f75222c226c6420656e63222c226f7572616765222c22207468652063222c227265772e5c6e4a222c22757374207468222c226520706c6163222c226520666f7220222c226120536e6172222c226b2120492068222c22617665207361222c22696420697420222c22746872696365222c223a5c6e57686174222c2220492074656c222c226c20796f7520222c22746872656520222c2274696d657320222c22697320747275222c22652e5c225c6e225d)

/-! `VCDiffEncoderTest.EncodeFixedChunkSizesJSON` -/
#guard encoderOutput (b 160 0x224a7573742074686520706c61636520666f72206120536e61726b2122207468652042656c6c6d616e2063726965642c0a4173206865206c616e646564206869732063726577207769746820636172653b0a537570706f7274696e672065616368206d616e206f6e2074686520746f70206f662074686520746964650a427920612066696e67657220656e7477696e656420696e2068697320686169722e0a00) 4 true [(b 45 0x224a7573742074686520706c61636520666f72206120536e61726b212049206861766520736169642069742074), (b 45 0x776963653a0a5468617420616c6f6e652073686f756c6420656e636f75726167652074686520637265772e0a4a), (b 45 0x7573742074686520706c61636520666f72206120536e61726b2120492068617665207361696420697420746872), (b 43 0x6963653a0a5768617420492074656c6c20796f752074687265652074696d657320697320747275652e220a)] = some (b 197 0x5b225c224a7573742074686520706c61636520666f72206120536e61726b212049206861766520736169642069742074222c22776963653a5c6e5468617420616c6f6e652073686f756c6420656e636f75726167652074686520637265772e5c6e4a222c227573742074686520706c61636520666f72206120536e61726b2120492068617665207361696420697420746872222c226963653a5c6e5768617420492074656c6c20796f752074687265652074696d657320697320747275652e5c225c6e225d)

/-! `VCDiffEncoderTest.EncodeFixedChunkSizesJSON` -/
#guard encoderOutput (b 160 0x224a7573742074686520706c61636520666f72206120536e61726b2122207468652042656c6c6d616e2063726965642c0a4173206865206c616e646564206869732063726577207769746820636172653b0a537570706f7274696e672065616368206d616e206f6e2074686520746f70206f662074686520746964650a427920612066696e67657220656e7477696e656420696e2068697320686169722e0a00) 4 true [(b 60 0x224a7573742074686520706c61636520666f72206120536e61726b212049206861766520736169642069742074776963653a0a5468617420616c6f6e), (b 60 0x652073686f756c6420656e636f75726167652074686520637265772e0a4a7573742074686520706c61636520666f72206120536e61726b2120492068), (b 58 0x6176652073616964206974207468726963653a0a5768617420492074656c6c20796f752074687265652074696d657320697320747275652e220a)] = some (b 194 0x5b225c224a7573742074686520706c61636520666f72206120536e61726b212049206861766520736169642069742074776963653a5c6e5468617420616c6f6e222c22652073686f756c6420656e636f75726167652074686520637265772e5c6e4a7573742074686520706c61636520666f72206120536e61726b2120492068222c226176652073616964206974207468726963653a5c6e5768617420492074656c6c20796f752074687265652074696d657320697320747275652e5c225c6e225d)

/-! `VCDiffHTML1Test.CheckOutputOfSimpleEncoder` -/
#guard encoderOutput (b 57 0x3c68746d6c3e3c666f6e7420636f6c6f723d7265643e5468697320706172742066726f6d2074686520646963743c2f666f6e743e3c62723e00) 0 true [(b 87 0x3c68746d6c3e3c666f6e7420636f6c6f723d7265643e5468697320706172742066726f6d2074686520646963743c2f666f6e743e3c62723e0a416e6420746869732070617274206973206e6f742e2e2e3c2f68746d6c3e)] = some (b 50 0xd6c3c400000139002957001f04010a416e6420746869732070617274206973206e6f742e2e2e3c2f68746d6c3e7338011f00)

/-! `VCDiffHTML1Test.SimpleEncoderPerformsTargetMatching` -/
#guard encoderOutput (b 57 0x3c68746d6c3e3c666f6e7420636f6c6f723d7265643e5468697320706172742066726f6d2074686520646963743c2f666f6e743e3c62723e00) 0 true [(b 256 0x41414141414141414141414141414141414141414141414141414141414141414141414141414141414141414141414141414141414141414141414141414141414141414141414141414141414141414141414141414141414141414141414141414141414141414141414141414141414141414141414141414141414141414141414141414141414141414141414141414141414141414141414141414141414141414141414141414141414141414141414141414141414141414141414141414141414141414141414141414141414141414141414141414141414141414141414141414141414141414141414141414141414141414141414141414141)] = some (b 21 0xd6c3c400000139000c820000010401410223817f01)

/-! `VCDiffHTML1Test.SimpleEncoderWithoutTargetMatching` -/
#guard encoderOutput (b 57 0x3c68746d6c3e3c666f6e7420636f6c6f723d7265643e5468697320706172742066726f6d2074686520646963743c2f666f6e743e3c62723e00) 0 false [(b 256 0x41414141414141414141414141414141414141414141414141414141414141414141414141414141414141414141414141414141414141414141414141414141414141414141414141414141414141414141414141414141414141414141414141414141414141414141414141414141414141414141414141414141414141414141414141414141414141414141414141414141414141414141414141414141414141414141414141414141414141414141414141414141414141414141414141414141414141414141414141414141414141414141414141414141414141414141414141414141414141414141414141414141414141414141414141414141)] = some (b 276 0xd6c3c40000013900820a8200008200030041414141414141414141414141414141414141414141414141414141414141414141414141414141414141414141414141414141414141414141414141414141414141414141414141414141414141414141414141414141414141414141414141414141414141414141414141414141414141414141414141414141414141414141414141414141414141414141414141414141414141414141414141414141414141414141414141414141414141414141414141414141414141414141414141414141414141414141414141414141414141414141414141414141414141414141414141414141414141414141414141414141414141414141414141414141018200)

/-! `VCDiffHTML2Test.VerifyOutputOfSimpleEncoder` -/
#guard encoderOutput (b 18 0x31300a546869732069732061207465737400) 0 true [(b 18 0x54686973206973206120746573742121210a)] = some (b 34 0xd6c3c4000001120019120012020054686973206973206120746573742121210a0112)

/-! `VCDiffHTML2Test.VerifyOutputWithChecksum` -/
#guard encoderOutput (b 18 0x31300a546869732069732061207465737400) 3 true [(b 18 0x54686973206973206120746573742121210a)] = some (b 39 0xd6c3c453000512001e120000140083cbb08a62011254686973206973206120746573742121210a)

end Vcd.Vectors
