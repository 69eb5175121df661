import Verif.Vectors.CheckEncoder

/-!
# Tests of src/encodetable_test.cc and src/jsonwriter_test.cc with exact expectations, on the model

Tests run when the module is compiled, not proofs.
-/

namespace Vcd.Vectors

/-! `CodeTableWriterTest.StandardWriterEncodeAdd` -/
#guard writerOutput (Writer.new false) 17 none [.add (b 3 0x666f6f)] = some (b 13 0x011100090300030100666f6f04)

/-! `CodeTableWriterTest.ExerciseWriterEncodeAdd` -/
#guard writerOutput exerciseWriter 17 none [.add (b 3 0x666f6f)] = some (b 14 0x0111000a03000005000403666f6f)

/-! `CodeTableWriterTest.StandardWriterEncodeRun` -/
#guard writerOutput (Writer.new false) 17 none [.run 3 97] = some (b 12 0x011100080300010200610003)

/-! `CodeTableWriterTest.ExerciseWriterEncodeRun` -/
#guard writerOutput exerciseWriter 17 none [.run 3 97] = some (b 12 0x011100080300000300080361)

/-! `CodeTableWriterTest.StandardWriterEncodeCopy` -/
#guard writerOutput (Writer.new false) 17 none [.copy 2 8, .copy 2 8] = some (b 13 0x01110009100000020218780202)

/-! `CodeTableWriterTest.InterleavedWriterEncodeCopy` -/
#guard writerOutput (Writer.new true) 17 none [.copy 2 8, .copy 2 8] = some (b 13 0x01110009100000040018027802)

/-! `CodeTableWriterTest.StandardWriterEncodeCombo` -/
#guard writerOutput (Writer.new false) 17 none [.add (b 4 0x7261796f), .copy 2 5, .copy 0 4, .add (b 1 0x58)] = some (b 18 0x0111000e0e000502027261796f58adfd0200)

/-! `CodeTableWriterTest.InterleavedWriterEncodeCombo` -/
#guard writerOutput (Writer.new true) 17 none [.add (b 4 0x7261796f), .copy 2 5, .copy 0 4, .add (b 1 0x58)] = some (b 18 0x0111000e0e00000900ad7261796f02fd0058)

/-! `CodeTableWriterTest.InterleavedWriterEncodeComboWithChecksum` -/
#guard writerOutput (Writer.new true) 17 (some 0xFFFFFFFF) [.add (b 4 0x7261796f), .copy 2 5, .copy 0 4, .add (b 1 0x58)] = some (b 23 0x051100130e000009008fffffff7fad7261796f02fd0058)

/-! `CodeTableWriterTest.ReallyBigDictionary` -/
#guard writerOutput (Writer.new true) 1073741823 none [.copy 2 8, .copy 0x3FFFFFFE 8] = some (b 17 0x0183ffffff7f0009100000040018022809)

/-! `CodeTableWriterTest.WriterEncodeNothing` -/
#guard writerOutput (Writer.new false) 0 none [] = some []

/-! `CodeTableWriterTest.WriterEncodeNothing` -/
#guard writerOutput (Writer.new true) 16 none [] = some []

/-! `CodeTableWriterTest.WriterEncodeNothing` -/
#guard writerOutput exerciseWriter 32 none [] = some []

/-! `JSONWriterTest.Null` -/
#guard jsonOutput [] = []

/-! `JSONWriterTest.Empty` -/
#guard jsonOutput [.output] = (b 2 0x5b5d)

/-! `JSONWriterTest.Add` -/
#guard jsonOutput [.add (b 3 0x313233), .output] = (b 7 0x5b22313233225d)

/-! `JSONWriterTest.Copy` -/
#guard jsonOutput [.copy 3 5, .output] = (b 5 0x5b332c355d)

/-! `JSONWriterTest.Run` -/
#guard jsonOutput [.run 3 97, .output] = (b 7 0x5b22616161225d)

/-! `JSONWriterTest.AddEscaped` -/
#guard jsonOutput [.add (b 3 0x0a080d), .output] = (b 10 0x5b225c6e5c625c72225d)

/-! `JSONWriterTest.AddCopyAdd` -/
#guard jsonOutput [.add (b 3 0x616263), .copy 3 5, .add (b 7 0x6465666768696a), .output] = (b 21 0x5b22616263222c332c352c226465666768696a225d)

/-! `JSONWriterTest.AddOutputAddOutputToSameString` -/
#guard jsonOutput [.add (b 3 0x616263), .output, .add (b 3 0x646566), .output] = (b 13 0x5b22616263222c22646566225d)

end Vcd.Vectors
