import Verif.Vectors.CheckEncoder
import Verif.Model.AddrCache
import Verif.Model.DecodeTable

/-!
# The unit tests of the parts, on the model

The tests of src/varint_bigendian_test.cc, src/headerparser_test.cc, src/addrcache_test.cc,
src/codetable_test.cc, src/instruction_map_test.cc, src/decodetable_test.cc, src/rolling_hash_test.cc
and src/blockhash_test.cc that have exact expectations, except those of debug checks and of NULL or
reversed pointers. Tests run when the module is compiled, not proofs. Where a test contradicts the
model this is said.
-/

namespace Vcd.Vectors

/-! ## src/varint_bigendian_test.cc -/

/-- `StartEncodingTest` and `ExpectEncodedByte`. -/
def encodes (maxBytes v : Nat) (bytes : Bytes) : Bool :=
  varintLength v = bytes.length && encodeVarint maxBytes v = some bytes

/-! `EncodeZero` -/
#guard encodes maxBytes32 0x0 [0x0]
#guard encodes maxBytes64 0x0 [0x0]
/-! `EncodeEightBits` -/
#guard encodes maxBytes32 0xff [0x81, 0x7f]
#guard encodes maxBytes64 0xff [0x81, 0x7f]
/-! `EncodeCADAD1A` -/
#guard encodes maxBytes32 0xcadad1a [0xe5, 0xb6, 0xda, 0x1a]
#guard encodes maxBytes64 0xcadad1a [0xe5, 0xb6, 0xda, 0x1a]
/-! `Encode32BitMaxInt` -/
#guard encodes maxBytes32 0x7fffffff [0x87, 0xff, 0xff, 0xff, 0x7f]
#guard encodes maxBytes64 0x7fffffff [0x87, 0xff, 0xff, 0xff, 0x7f]
/-! `Encode32Bits` -/
#guard encodes maxBytes64 0x80000000 [0x88, 0x80, 0x80, 0x80, 0x0]
/-! `Encode63Bits` -/
#guard encodes maxBytes64 0x7fffffffffffffff [0xff, 0xff, 0xff, 0xff, 0xff, 0xff, 0xff, 0xff, 0x7f]
/-! `EncodeDoesNotOverwriteExistingString` -/
#guard encodes maxBytes32 0x31 [0x31]
#guard encodes maxBytes64 0x31 [0x31]

/-! `ParseVarintTooLong` -/
#guard parseVarint32 (List.replicate 5 0xFF) = .error
#guard parseVarint64 (List.replicate 9 0xFF) = .error
/-! `ParseFourFFs` -/
#guard parseVarint32 (List.replicate 4 0xFF) = .error
/-! `ParseThreeFFs` -/
#guard parseVarint32 (List.replicate 3 0xFF) = .endOfData
/-! `ParseEightFFs` -/
#guard parseVarint64 (List.replicate 8 0xFF) = .endOfData
/-! `ParseZero` -/
#guard parseVarint32 [0] = .ok 0 []
#guard parseVarint64 [0] = .ok 0 []
/-! `ParseCADA1` -/
#guard parseVarint32 [0xCA, 0xDA, 0x01] = .ok 0x12AD01 []
#guard parseVarint64 [0xCA, 0xDA, 0x01] = .ok 0x12AD01 []
/-! `ParseEmpty` -/
#guard parseVarint32 [] = .endOfData
#guard parseVarint64 [] = .endOfData
/-! `Parse123456789` -/
#guard parseVarint32 [0x80 + 58, 0x80 + 111, 0x80 + 26, 21] = .ok 123456789 []
#guard parseVarint64 [0x80 + 58, 0x80 + 111, 0x80 + 26, 21] = .ok 123456789 []
/-! `Decode31Bits` -/
#guard parseVarint32 [0x87, 0xFF, 0xFF, 0xFF, 0x7F] = .ok 0x7FFFFFFF []
#guard parseVarint64 [0x87, 0xFF, 0xFF, 0xFF, 0x7F] = .ok 0x7FFFFFFF []
/-! `Decode32Bits` -/
#guard parseVarint32 [0x88, 0x80, 0x80, 0x80, 0x00] = .error
#guard parseVarint64 [0x88, 0x80, 0x80, 0x80, 0x00] = .ok 0x80000000 []
/-! `ContinuationBytesPastEndOfInput` -/
#guard parseVarint32 (List.replicate 10 0x80) = .endOfData
#guard parseVarint64 (List.replicate 10 0x80) = .endOfData

/-! ## src/headerparser_test.cc -/

/-- The bytes of a varint. -/
def vb (v : Nat) : Bytes := (encodeVarint maxBytes64 v).getD []

/-! `ParseMixed` -/
def mixed : Bytes := vb 0xCAFECAFE ++ [0xFF] ++ vb 0x02020202 ++ vb 0xCAFECAFE ++ [0xFF, 0xFF]
#guard parseUInt32 mixed = .ok 0xCAFECAFE (mixed.drop 5)
#guard parseByte (mixed.drop 5) = .ok 0xFF (mixed.drop 6)
#guard parseInt32 (mixed.drop 6) = .ok 0x02020202 (mixed.drop 10)
#guard parseUInt32 (mixed.drop 10) = .ok 0xCAFECAFE [0xFF, 0xFF]
#guard parseInt32 [0xFF, 0xFF] = .endOfData
/-! `ParseInvalidVarint` -/
#guard parseInt32 (0xC0 :: List.replicate 6 0x80) = .error

/-! ## src/addrcache_test.cc -/

/-! `ZeroCacheSizes`, `NearCacheSizeIsTooBig`, `SameCacheSizeIsTooBig`, `CombinedSizesAreTooBig`,
`MaxLegalNearCacheSize`, `MaxLegalSameCacheSize`, `MaxLegalCombinedSizes` -/
#guard ((AddrCache.new 0 0).init).isSome
#guard ((AddrCache.new 255 0).init).isNone
#guard ((AddrCache.new 0 255).init).isNone
#guard ((AddrCache.new 128 127).init).isNone
#guard ((AddrCache.new 255 255).init).isNone
#guard ((AddrCache.new 254 0).init).isSome
#guard ((AddrCache.new 0 254).init).isSome
#guard ((AddrCache.new 127 127).init).isSome

/-- The cache after `SetUp`. -/
def cache0 : AddrCache := AddrCache.newDefault.init.getD AddrCache.newDefault
/-- The cache with both sizes zero. -/
def cacheZero : AddrCache := (AddrCache.new 0 0).init.getD AddrCache.newDefault

/-! `CacheContentsInitiallyZero` -/
#guard cache0.near = List.replicate 4 0 && cache0.same = List.replicate 768 0
/-! `InsertFirstTen` -/
#guard (AddrCache.afterHistory 4 3 ((List.range 10).map (· + 1))).map (fun c => (c.near, c.same)) =
  some ([9, 10, 7, 8], List.range 11 ++ List.replicate 757 0)
/-! `InsertIntMax` -/
#guard (AddrCache.afterHistory 4 3 [0x7FFFFFFF]).map (fun c => (c.near, c.same)) =
  some ([0x7FFFFFFF, 0, 0, 0], (List.range 768).map fun i => if i = 0x7FFFFFFF % 768 then 0x7FFFFFFF else 0)

/-- Encodes addresses one after the other: modes and encoded addresses. -/
def encodeAll : AddrCache → List (Int × Int) → Option (List (Nat × Nat))
  | _, [] => some []
  | c, (a, h) :: l =>
    match c.encodeAddress a h with
    | .ok m e c => (encodeAll c l).map ((m, e) :: ·)
    | .fault _ => none

/-- Decodes addresses one after the other: the addresses, as long as decoding succeeds, and what is left. -/
def decodeAll : AddrCache → List (Int × Nat) → Bytes → List Nat × Bytes
  | _, [], s => ([], s)
  | c, (h, m) :: l, s =>
    match c.decodeAddress h m s with
    | .ok a s c => let r := decodeAll c l s; (a :: r.1, r.2)
    | _ => ([], s)

/-! `EncodeAddressModes` -/
#guard encodeAll cache0 [(0xFFFF, 0x10000000), (0x10000000, 0x10000010), (0x10000004, 0x10000020),
    (0x0FFFFFFE, 0x10000030), (0x10000004, 0x10000040)] =
  some [(0, 0xFFFF), (1, 0x10), (3, 0x04), (1, 0x32), (7, 0x04)]
/-! `DecodeAddressModes` -/
#guard decodeAll cache0 [(0x10000, 0), (0x20000, 1), (0x30000, 2), (0x40000, 6 + 0xCA % 3), (0x50000, 0), (0x60000, 2)]
    (vb 0xCAFE ++ vb 0xCAFE ++ vb 0x1000 ++ [0xFE] ++ vb 0xFE ++ vb 0x1000) =
  ([0xCAFE, 0x20000 - 0xCAFE, 0xDAFE, 0xCAFE, 0xFE, 0x10FE], [])
/-! `EncodeAddressZeroCacheSizes` -/
#guard encodeAll cacheZero [(0xFFFF, 0x10000000), (0x10000000, 0x10000010), (0x10000004, 0x10000020),
    (0x0FFFFFFE, 0x10000030), (0x10000004, 0x10000040)] =
  some [(0, 0xFFFF), (1, 0x10), (1, 0x1C), (1, 0x32), (1, 0x3C)]
/-! `DecodeAddressZeroCacheSizes` -/
#guard decodeAll cacheZero [(0x10000, 0), (0x20000, 1), (0x30000, 0)] (vb 0xCAFE ++ vb 0xCAFE ++ vb 0xDAFE) =
  ([0xCAFE, 0x20000 - 0xCAFE, 0xDAFE], [])
/-! `DecodeInvalidMode`, in a release build -/
#guard cache0.decodeAddress 0x10000000 (cache0.lastMode + 1) (vb 0xCAFE) = .error
#guard cache0.decodeAddress 0x10000000 0xFF (vb 0xCAFE) = .error
/-! `DecodeZeroOrNegativeHereAddress` -/
#guard cache0.decodeAddress 0 0 (vb 0xCAFE) = .error
/-! `DecodeAddressPastHereAddress`, `HereModeAddressTooLarge`, `DecodeInvalidHereAddress` -/
#guard cache0.decodeAddress 0x1000 0 (vb 0xCAFE) = .error
#guard cache0.decodeAddress 0x10000 1 (vb 0x10001) = .error
/-! `NearModeAddressOverflow`, `DecodeInvalidNearAddress`: the tests expect an error; the signed addition
they provoke is undefined behaviour, and in the model a fault. -/
#guard match cache0.decodeAddress 0x10000 0 (vb 0xCAFE ++ vb 0x7FFFFFFF) with
  | .ok a s c => a = 0xCAFE && c.decodeAddress 0x10000000 2 s = .fault .nearOverflow
  | _ => false
/-! `DecodeInvalidVarint` -/
#guard cache0.decodeAddress 0x10000000 0 (List.replicate 512 0xFE) = .error
/-! `DecodePartialVarint` -/
#guard cache0.decodeAddress 0x10000000 0 [0xFE, 0xFE, 0xFE] = .endOfData
#guard decodeAll cache0 [(0x10000000, 0)] [0xFE, 0xFE, 0xFE, 0x01] = ([0xFDFBF01], [])
/-! `DecodeBadMode`, in a release build -/
#guard cache0.decodeAddress 0x10000 (cache0.lastMode + 1) (vb 0xCAFE) = .error

/-! ## src/codetable_test.cc -/

/-- Assigns one element of one of the six arrays (numbered in the order of the structure). -/
def assign (t : CodeTable) (column op : Nat) (v : UInt8) : CodeTable :=
  if h : (t.toBytes.set (256 * column + op) v).length = 1536 then
    CodeTable.ofBytes (t.toBytes.set (256 * column + op) v) h
  else t

/-- Performs assignments on the default code table, and validates it. -/
def validAfter (l : List (Nat × Nat × UInt8)) : Bool :=
  (l.foldl (fun t (k, op, v) => assign t k op v) defaultTable).validate defaultLastMode

/-! `SetUp`, `ValidateExerciseCodeTable` -/
#guard defaultTable.validate defaultLastMode
#guard exerciseTable.validate 4
/-- `VerifyInstruction` -/
def isInstruction (op inst size mode : UInt8) : Bool :=
  defaultTable.first op = ⟨inst, size, mode⟩ && defaultTable.second op = ⟨0, 0, 0⟩
#guard isInstruction 131 3 0 7 && isInstruction 1 1 0 0 && isInstruction 0 2 0 0 && isInstruction 20 3 4 0
/-! `MissingCopyMode`, `MissingAdd`, `MissingRun` -/
#guard !validAfter [(2, 131, 0xFF)]
#guard !validAfter [(2, 1, 0xFF)]
#guard !validAfter [(2, 0, 0xFF)]
/-! `BadOpcode`, `BadMode` -/
#guard !validAfter [(0, 0, 4)]
#guard !validAfter [(0, 0, 0xFF)]
#guard !validAfter [(4, 131, 9)]
#guard !validAfter [(4, 131, 0xFF)]
/-! `AddWithNonzeroMode`, `RunWithNonzeroMode`, `NoOpWithNonzeroMode`, `NoOpWithNonzeroSize` -/
#guard !validAfter [(4, 1, 1)]
#guard !validAfter [(4, 0, 1)]
#guard validAfter [(0, 20, 0), (4, 20, 0), (2, 20, 0)]
#guard !validAfter [(0, 20, 0), (4, 20, 1), (2, 20, 0)]
#guard !validAfter [(0, 20, 0), (4, 20, 0), (2, 20, 1)]
/-! `BadSecondOpcode`, `BadSecondMode` -/
#guard !validAfter [(1, 20, 4)]
#guard !validAfter [(1, 20, 0xFF)]
#guard validAfter [(1, 20, 3)]
#guard !validAfter [(1, 20, 3), (5, 20, 9)]
#guard !validAfter [(1, 20, 3), (5, 20, 0xFF)]
/-! `AddSecondWithNonzeroMode`, `RunSecondWithNonzeroMode`, `SecondNoOpWithNonzeroMode`,
`SecondNoOpWithNonzeroSize` -/
#guard validAfter [(1, 20, 1)]
#guard !validAfter [(1, 20, 1), (5, 20, 1)]
#guard validAfter [(1, 20, 2)]
#guard !validAfter [(1, 20, 2), (5, 20, 1)]
#guard !validAfter [(5, 20, 1)]
#guard !validAfter [(3, 20, 1)]

/-! ## src/instruction_map_test.cc -/

/-- A lookup of a first instruction in the default map. -/
def first? (inst : UInt8) (size mode : Nat) : Option Lookup :=
  defaultMap.map (·.firstMap.lookup inst size mode)
/-- A lookup of a second instruction in the default map. -/
def second? (op inst : UInt8) (size mode : Nat) : Option Lookup :=
  defaultMap.map (·.secondMap.lookup op inst size mode)

/-! `DefaultMapLookupFirstNoop` -/
#guard ([(0, 0, 0, none), (0, 0, 255, none), (0, 255, 0, none), (0, 255, 255, none)] : List (UInt8 × Nat × Nat × Option UInt8)).all fun (i, s, m, e) => first? i s m = some (.found e)
/-! `DefaultMapLookupFirstAdd` -/
#guard ([(1, 1, 0, some 2), (1, 2, 0, some 3), (1, 3, 0, some 4), (1, 4, 0, some 5), (1, 5, 0, some 6), (1, 6, 0, some 7), (1, 7, 0, some 8), (1, 8, 0, some 9), (1, 9, 0, some 10), (1, 10, 0, some 11), (1, 11, 0, some 12), (1, 12, 0, some 13), (1, 13, 0, some 14), (1, 14, 0, some 15), (1, 15, 0, some 16), (1, 16, 0, some 17), (1, 17, 0, some 18), (1, 100, 0, none), (1, 255, 0, none), (1, 0, 0, some 1), (1, 1, 2, some 2), (1, 1, 255, some 2)] : List (UInt8 × Nat × Nat × Option UInt8)).all fun (i, s, m, e) => first? i s m = some (.found e)
/-! `DefaultMapLookupFirstRun` -/
#guard ([(2, 0, 0, some 0), (2, 1, 0, none), (2, 255, 0, none), (2, 0, 2, some 0)] : List (UInt8 × Nat × Nat × Option UInt8)).all fun (i, s, m, e) => first? i s m = some (.found e)
/-! `DefaultMapLookupFirstCopyMode0` -/
#guard ([(3, 0, 0, some 19), (3, 4, 0, some 20), (3, 5, 0, some 21), (3, 6, 0, some 22), (3, 7, 0, some 23), (3, 8, 0, some 24), (3, 9, 0, some 25), (3, 10, 0, some 26), (3, 11, 0, some 27), (3, 12, 0, some 28), (3, 13, 0, some 29), (3, 14, 0, some 30), (3, 15, 0, some 31), (3, 16, 0, some 32), (3, 17, 0, some 33), (3, 18, 0, some 34)] : List (UInt8 × Nat × Nat × Option UInt8)).all fun (i, s, m, e) => first? i s m = some (.found e)
/-! `DefaultMapLookupFirstCopyMode1` -/
#guard ([(3, 0, 1, some 35), (3, 4, 1, some 36), (3, 5, 1, some 37), (3, 6, 1, some 38), (3, 7, 1, some 39), (3, 8, 1, some 40), (3, 9, 1, some 41), (3, 10, 1, some 42), (3, 11, 1, some 43), (3, 12, 1, some 44), (3, 13, 1, some 45), (3, 14, 1, some 46), (3, 15, 1, some 47), (3, 16, 1, some 48), (3, 17, 1, some 49), (3, 18, 1, some 50)] : List (UInt8 × Nat × Nat × Option UInt8)).all fun (i, s, m, e) => first? i s m = some (.found e)
/-! `DefaultMapLookupFirstCopyMode2` -/
#guard ([(3, 0, 2, some 51), (3, 4, 2, some 52), (3, 5, 2, some 53), (3, 6, 2, some 54), (3, 7, 2, some 55), (3, 8, 2, some 56), (3, 9, 2, some 57), (3, 10, 2, some 58), (3, 11, 2, some 59), (3, 12, 2, some 60), (3, 13, 2, some 61), (3, 14, 2, some 62), (3, 15, 2, some 63), (3, 16, 2, some 64), (3, 17, 2, some 65), (3, 18, 2, some 66)] : List (UInt8 × Nat × Nat × Option UInt8)).all fun (i, s, m, e) => first? i s m = some (.found e)
/-! `DefaultMapLookupFirstCopyMode3` -/
#guard ([(3, 0, 3, some 67), (3, 4, 3, some 68), (3, 5, 3, some 69), (3, 6, 3, some 70), (3, 7, 3, some 71), (3, 8, 3, some 72), (3, 9, 3, some 73), (3, 10, 3, some 74), (3, 11, 3, some 75), (3, 12, 3, some 76), (3, 13, 3, some 77), (3, 14, 3, some 78), (3, 15, 3, some 79), (3, 16, 3, some 80), (3, 17, 3, some 81), (3, 18, 3, some 82)] : List (UInt8 × Nat × Nat × Option UInt8)).all fun (i, s, m, e) => first? i s m = some (.found e)
/-! `DefaultMapLookupFirstCopyMode4` -/
#guard ([(3, 0, 4, some 83), (3, 4, 4, some 84), (3, 5, 4, some 85), (3, 6, 4, some 86), (3, 7, 4, some 87), (3, 8, 4, some 88), (3, 9, 4, some 89), (3, 10, 4, some 90), (3, 11, 4, some 91), (3, 12, 4, some 92), (3, 13, 4, some 93), (3, 14, 4, some 94), (3, 15, 4, some 95), (3, 16, 4, some 96), (3, 17, 4, some 97), (3, 18, 4, some 98)] : List (UInt8 × Nat × Nat × Option UInt8)).all fun (i, s, m, e) => first? i s m = some (.found e)
/-! `DefaultMapLookupFirstCopyMode5` -/
#guard ([(3, 0, 5, some 99), (3, 4, 5, some 100), (3, 5, 5, some 101), (3, 6, 5, some 102), (3, 7, 5, some 103), (3, 8, 5, some 104), (3, 9, 5, some 105), (3, 10, 5, some 106), (3, 11, 5, some 107), (3, 12, 5, some 108), (3, 13, 5, some 109), (3, 14, 5, some 110), (3, 15, 5, some 111), (3, 16, 5, some 112), (3, 17, 5, some 113), (3, 18, 5, some 114)] : List (UInt8 × Nat × Nat × Option UInt8)).all fun (i, s, m, e) => first? i s m = some (.found e)
/-! `DefaultMapLookupFirstCopyMode6` -/
#guard ([(3, 0, 6, some 115), (3, 4, 6, some 116), (3, 5, 6, some 117), (3, 6, 6, some 118), (3, 7, 6, some 119), (3, 8, 6, some 120), (3, 9, 6, some 121), (3, 10, 6, some 122), (3, 11, 6, some 123), (3, 12, 6, some 124), (3, 13, 6, some 125), (3, 14, 6, some 126), (3, 15, 6, some 127), (3, 16, 6, some 128), (3, 17, 6, some 129), (3, 18, 6, some 130)] : List (UInt8 × Nat × Nat × Option UInt8)).all fun (i, s, m, e) => first? i s m = some (.found e)
/-! `DefaultMapLookupFirstCopyMode7` -/
#guard ([(3, 0, 7, some 131), (3, 4, 7, some 132), (3, 5, 7, some 133), (3, 6, 7, some 134), (3, 7, 7, some 135), (3, 8, 7, some 136), (3, 9, 7, some 137), (3, 10, 7, some 138), (3, 11, 7, some 139), (3, 12, 7, some 140), (3, 13, 7, some 141), (3, 14, 7, some 142), (3, 15, 7, some 143), (3, 16, 7, some 144), (3, 17, 7, some 145), (3, 18, 7, some 146)] : List (UInt8 × Nat × Nat × Option UInt8)).all fun (i, s, m, e) => first? i s m = some (.found e)
/-! `DefaultMapLookupFirstCopyMode8` -/
#guard ([(3, 0, 8, some 147), (3, 4, 8, some 148), (3, 5, 8, some 149), (3, 6, 8, some 150), (3, 7, 8, some 151), (3, 8, 8, some 152), (3, 9, 8, some 153), (3, 10, 8, some 154), (3, 11, 8, some 155), (3, 12, 8, some 156), (3, 13, 8, some 157), (3, 14, 8, some 158), (3, 15, 8, some 159), (3, 16, 8, some 160), (3, 17, 8, some 161), (3, 18, 8, some 162)] : List (UInt8 × Nat × Nat × Option UInt8)).all fun (i, s, m, e) => first? i s m = some (.found e)
/-! `DefaultMapLookupFirstCopyInvalid` -/
#guard ([(3, 3, 0, none), (3, 3, 3, none), (3, 255, 0, none)] : List (UInt8 × Nat × Nat × Option UInt8)).all fun (i, s, m, e) => first? i s m = some (.found e)
/-! `DefaultMapLookupSecondNoop` -/
#guard ([(20, 0, 0, 0, none), (20, 0, 0, 255, none), (20, 0, 255, 0, none), (20, 0, 255, 255, none)] : List (UInt8 × UInt8 × Nat × Nat × Option UInt8)).all fun (o, i, s, m, e) => second? o i s m = some (.found e)
/-! `DefaultMapLookupSecondAdd` -/
#guard ([(20, 1, 1, 0, some 247), (36, 1, 1, 0, some 248), (52, 1, 1, 0, some 249), (68, 1, 1, 0, some 250), (84, 1, 1, 0, some 251), (100, 1, 1, 0, some 252), (116, 1, 1, 0, some 253), (132, 1, 1, 0, some 254), (148, 1, 1, 0, some 255), (20, 1, 1, 2, some 247), (20, 1, 1, 255, some 247), (20, 1, 0, 0, none), (20, 1, 0, 255, none), (20, 1, 255, 0, none), (0, 1, 1, 0, none), (1, 1, 1, 0, none), (247, 1, 1, 0, none), (255, 1, 1, 0, none)] : List (UInt8 × UInt8 × Nat × Nat × Option UInt8)).all fun (o, i, s, m, e) => second? o i s m = some (.found e)
/-! `DefaultMapLookupSecondRun` -/
#guard ([(0, 2, 0, 0, none), (20, 2, 0, 0, none), (20, 2, 0, 255, none), (20, 2, 255, 0, none), (20, 2, 255, 255, none), (255, 2, 0, 0, none)] : List (UInt8 × UInt8 × Nat × Nat × Option UInt8)).all fun (o, i, s, m, e) => second? o i s m = some (.found e)
/-! `DefaultMapLookupSecondCopyMode0` -/
#guard ([(2, 3, 4, 0, some 163), (2, 3, 5, 0, some 164), (2, 3, 6, 0, some 165), (3, 3, 4, 0, some 166), (3, 3, 5, 0, some 167), (3, 3, 6, 0, some 168), (4, 3, 4, 0, some 169), (4, 3, 5, 0, some 170), (4, 3, 6, 0, some 171), (5, 3, 4, 0, some 172), (5, 3, 5, 0, some 173), (5, 3, 6, 0, some 174)] : List (UInt8 × UInt8 × Nat × Nat × Option UInt8)).all fun (o, i, s, m, e) => second? o i s m = some (.found e)
/-! `DefaultMapLookupSecondCopyMode1` -/
#guard ([(2, 3, 4, 1, some 175), (2, 3, 5, 1, some 176), (2, 3, 6, 1, some 177), (3, 3, 4, 1, some 178), (3, 3, 5, 1, some 179), (3, 3, 6, 1, some 180), (4, 3, 4, 1, some 181), (4, 3, 5, 1, some 182), (4, 3, 6, 1, some 183), (5, 3, 4, 1, some 184), (5, 3, 5, 1, some 185), (5, 3, 6, 1, some 186)] : List (UInt8 × UInt8 × Nat × Nat × Option UInt8)).all fun (o, i, s, m, e) => second? o i s m = some (.found e)
/-! `DefaultMapLookupSecondCopyMode2` -/
#guard ([(2, 3, 4, 2, some 187), (2, 3, 5, 2, some 188), (2, 3, 6, 2, some 189), (3, 3, 4, 2, some 190), (3, 3, 5, 2, some 191), (3, 3, 6, 2, some 192), (4, 3, 4, 2, some 193), (4, 3, 5, 2, some 194), (4, 3, 6, 2, some 195), (5, 3, 4, 2, some 196), (5, 3, 5, 2, some 197), (5, 3, 6, 2, some 198)] : List (UInt8 × UInt8 × Nat × Nat × Option UInt8)).all fun (o, i, s, m, e) => second? o i s m = some (.found e)
/-! `DefaultMapLookupSecondCopyMode3` -/
#guard ([(2, 3, 4, 3, some 199), (2, 3, 5, 3, some 200), (2, 3, 6, 3, some 201), (3, 3, 4, 3, some 202), (3, 3, 5, 3, some 203), (3, 3, 6, 3, some 204), (4, 3, 4, 3, some 205), (4, 3, 5, 3, some 206), (4, 3, 6, 3, some 207), (5, 3, 4, 3, some 208), (5, 3, 5, 3, some 209), (5, 3, 6, 3, some 210)] : List (UInt8 × UInt8 × Nat × Nat × Option UInt8)).all fun (o, i, s, m, e) => second? o i s m = some (.found e)
/-! `DefaultMapLookupSecondCopyMode4` -/
#guard ([(2, 3, 4, 4, some 211), (2, 3, 5, 4, some 212), (2, 3, 6, 4, some 213), (3, 3, 4, 4, some 214), (3, 3, 5, 4, some 215), (3, 3, 6, 4, some 216), (4, 3, 4, 4, some 217), (4, 3, 5, 4, some 218), (4, 3, 6, 4, some 219), (5, 3, 4, 4, some 220), (5, 3, 5, 4, some 221), (5, 3, 6, 4, some 222)] : List (UInt8 × UInt8 × Nat × Nat × Option UInt8)).all fun (o, i, s, m, e) => second? o i s m = some (.found e)
/-! `DefaultMapLookupSecondCopyMode5` -/
#guard ([(2, 3, 4, 5, some 223), (2, 3, 5, 5, some 224), (2, 3, 6, 5, some 225), (3, 3, 4, 5, some 226), (3, 3, 5, 5, some 227), (3, 3, 6, 5, some 228), (4, 3, 4, 5, some 229), (4, 3, 5, 5, some 230), (4, 3, 6, 5, some 231), (5, 3, 4, 5, some 232), (5, 3, 5, 5, some 233), (5, 3, 6, 5, some 234)] : List (UInt8 × UInt8 × Nat × Nat × Option UInt8)).all fun (o, i, s, m, e) => second? o i s m = some (.found e)
/-! `DefaultMapLookupSecondCopyMode6` -/
#guard ([(2, 3, 4, 6, some 235), (3, 3, 4, 6, some 236), (4, 3, 4, 6, some 237), (5, 3, 4, 6, some 238), (2, 3, 4, 7, some 239)] : List (UInt8 × UInt8 × Nat × Nat × Option UInt8)).all fun (o, i, s, m, e) => second? o i s m = some (.found e)
/-! `DefaultMapLookupSecondCopyMode7` -/
#guard ([(3, 3, 4, 7, some 240), (4, 3, 4, 7, some 241), (5, 3, 4, 7, some 242)] : List (UInt8 × UInt8 × Nat × Nat × Option UInt8)).all fun (o, i, s, m, e) => second? o i s m = some (.found e)
/-! `DefaultMapLookupSecondCopyMode8` -/
#guard ([(2, 3, 4, 8, some 243), (3, 3, 4, 8, some 244), (4, 3, 4, 8, some 245), (5, 3, 4, 8, some 246)] : List (UInt8 × UInt8 × Nat × Nat × Option UInt8)).all fun (o, i, s, m, e) => second? o i s m = some (.found e)
/-! `DefaultMapLookupSecondCopyInvalid` -/
#guard ([(2, 3, 0, 0, none), (2, 3, 255, 0, none), (2, 3, 255, 255, none), (0, 3, 4, 0, none), (255, 3, 4, 0, none)] : List (UInt8 × UInt8 × Nat × Nat × Option UInt8)).all fun (o, i, s, m, e) => second? o i s m = some (.found e)

/-! `ExerciseTableLookup`. -/

/-- `VerifyExerciseFirstInstruction`, for the opcode at which the loop of the test stands (its second
instruction is NOOP). -/
def exerciseFirst (map : InstructionMap) (expected : Nat) (h : Half) : Bool :=
  match map.firstMap.lookup h.inst h.size.toNat h.mode.toNat with
  | .found (some op) =>
    if (exerciseTable.first op).inst = vcdNoop then
      op.toNat ≤ expected && exerciseTable.second op = h && exerciseTable.first op = ⟨0, 0, 0⟩
    else op.toNat = expected && exerciseTable.first op = h && exerciseTable.second op = ⟨0, 0, 0⟩
  | _ => false

/-- `VerifyExerciseSecondInstruction`. -/
def exerciseSecond (map : InstructionMap) (expected : Nat) (h1 h2 : Half) : Bool :=
  match map.firstMap.lookup h1.inst h1.size.toNat h1.mode.toNat with
  | .found (some op) =>
    map.secondMap.lookup op h2.inst h2.size.toNat h2.mode.toNat = .found (some (UInt8.ofNat expected))
  | _ => false

#guard match InstructionMap.build exerciseTable 4 with
  | none => false
  | some map => (List.range 64).all fun k =>
    let a := exerciseInst (k / 8)
    let b := exerciseInst (k % 8)
    let half (i : Nat × Nat) (size : UInt8) : Half := ⟨UInt8.ofNat i.1, if i.1 = 0 then 0 else size, UInt8.ofNat i.2⟩
    if b.1 = 0 then
      exerciseFirst map (4 * k) (half a 0) && exerciseFirst map (4 * k + 2) (half a 255)
    else if a.1 ≠ 0 then
      exerciseSecond map (4 * k) (half a 0) (half b 0) && exerciseSecond map (4 * k + 1) (half a 0) (half b 255) &&
      exerciseSecond map (4 * k + 2) (half a 255) (half b 0) && exerciseSecond map (4 * k + 3) (half a 255) (half b 255)
    else true

/-! ## src/decodetable_test.cc -/

/-- Reads instructions (type, size, mode) until there is none or `n` have been read; the last component is what is
left of the stream. -/
def readInstructions (t : CodeTable) : Nat → Option UInt8 → Bytes → List (UInt8 × Nat × UInt8) × Option Bytes
  | 0, _, s => ([], some s)
  | n + 1, pending, s =>
    match getNextInstruction t pending s with
    | .inst i sz m s pending => let r := readInstructions t n pending s; ((i, sz, m) :: r.1, r.2)
    | .endOfData s _ => ([], some s)
    | .error => ([], none)

/-! `ReadAdd`, `UnGetAdd`, `ReadRun`, `ReadCopy`, `UnGetCopy`, `ReadAddCopy`, `UnGetAddCopy`, `ReadCopyAdd`,
`UnGetCopyAdd`, `UnGetTwice`, `UnGetBeforeGet` (going back is returning to the state before the call) -/
#guard readInstructions defaultTable 1 none (1 :: vb 257 ++ [0]) = ([(1, 257, 0)], some [0])
#guard readInstructions defaultTable 1 none (0 :: vb 111 ++ [0]) = ([(2, 111, 0)], some [0])
#guard readInstructions defaultTable 1 none [58, 0] = ([(3, 10, 2)], some [0])
#guard readInstructions defaultTable 2 none [175, 0] = ([(1, 1, 0), (3, 4, 1)], some [0])
#guard readInstructions defaultTable 2 none [255, 0] = ([(3, 4, 8), (1, 1, 0)], some [0])
/-! `ReReadIncomplete` -/
#guard readInstructions defaultTable 9 none [] = ([], some [])
#guard readInstructions defaultTable 9 none [175] = ([(1, 1, 0), (3, 4, 1)], some [])
#guard readInstructions defaultTable 9 none [1] = ([], some [1])
#guard readInstructions defaultTable 9 none [1, 111] = ([(1, 111, 0)], some [])
#guard readInstructions defaultTable 9 none [255] = ([(3, 4, 8), (1, 1, 0)], some [])
/-! `ExerciseCodeTableReader` -/
#guard
  let halves (op : Nat) : List Half :=
    [exerciseTable.first (UInt8.ofNat op), exerciseTable.second (UInt8.ofNat op)].filter fun h => h.inst ≠ vcdNoop
  let stream := (List.range 256).flatMap fun op =>
    UInt8.ofNat op :: (halves op).flatMap fun h => if h.size = 0 then vb (1000 + op) else []
  let expected := (List.range 256).flatMap fun op =>
    (halves op).map fun h => (h.inst, if h.size = 0 then 1000 + op else h.size.toNat, h.mode)
  readInstructions exerciseTable 1000 none stream = (expected, some [])

/-! ## src/rolling_hash_test.cc -/

/-! `KBaseIsAPowerOfTwo`, `TestModBaseForValues`, `VerifyHashFirstTwoBytes` -/
#guard RollingHash.kBase &&& (RollingHash.kBase - 1) = 0
#guard ([0, 10, 0 - 10, RollingHash.kBase - 1, RollingHash.kBase, RollingHash.kBase + 1, 0x7FFFFFFF, 0x80000000,
    0xFFFFFFFE, 0xFFFFFFFF] : List UInt32).all fun v =>
  RollingHash.modBase v = v % RollingHash.kBase &&
  RollingHash.findModBaseInverse v = (0 - v) % RollingHash.kBase &&
  RollingHash.modBase (v + RollingHash.findModBaseInverse v) = 0
#guard ([(0x00, 0x00), (0x00, 0xFF), (0xFF, 0x00), (0xFF, 0xFF), (0x00, 0x80), (0x7F, 0xFF), (0x7F, 0x80),
    (0x01, 0x8F)] : List (UInt8 × UInt8)).all fun (x, y) =>
  RollingHash.hash [x, y] = RollingHash.hashStep (RollingHash.hashStep 0 x) y &&
  RollingHash.hash [x, y] = RollingHash.hashStep (UInt32.ofNat x.toNat) y
/-! `UpdateHashMatchesHashFromScratch`, on one text (for every text it is
`Vcd.Props.rolling_hash_update`) -/
#guard ([4, 8, 16, 32, 64, 128] : List Nat).all fun w =>
  let text : Bytes := (List.range 400).map fun i => UInt8.ofNat (i * i * 7 + i / 3)
  (List.range (400 - w)).all fun i =>
    RollingHash.updateHash w (RollingHash.hash ((text.drop i).take w)) (text.getD i 0) (text.getD (i + w) 0) =
      RollingHash.hash ((text.drop (i + 1)).take w)

/-! ## src/blockhash_test.cc -/

/-- `MakeEachLetterABlock`. -/
def padded (s : String) : Bytes := s.toUTF8.toList.flatMap fun c => List.replicate (kBlockSize - 1) 0x20 ++ [c]

def sampleText : Bytes := padded "The only thing we have to fear is fear itself"
def searchString : Bytes := padded "What we hear is fearsome"
def searchAltered : Bytes := padded "Vhat ve hear is fearsomm"
def searchToEnd : Bytes := padded "Pop will eat itself, eventually"
def searchToBeginning : Bytes := padded "Use The online dictionary"
def unalignedE : Bytes := List.replicate 14 0x20 ++ [0x65, 0x20]
def allQs : Bytes := List.replicate 16 0x51

/-- A value, or the value to be expected from an impossible call. -/
def orElse {α : Type} (d : α) : Except Fault α → α
  | .ok a => a
  | .error _ => d

/-- A hash of the whole of the text. -/
def hashOf (s : Bytes) (offset : Int) : Option BlockHash := orElse none (BlockHash.create s offset true)
/-- `dh_` -/
def dh : Option BlockHash := hashOf sampleText 0
/-- `th_` -/
def th : Option BlockHash := orElse none (BlockHash.create sampleText 0 false)

/-- All the matching blocks, in the order in which `FirstMatchingBlock` and `NextMatchingBlock` give them. -/
def allMatches (bh : Option BlockHash) (block : Bytes) : Option (List Nat) := do
  let bh ← bh
  let rec go : Nat → Except Fault (Option Nat) → Option (List Nat)
    | _, .error _ => none
    | _, .ok none => some []
    | 0, .ok (some _) => none
    | k + 1, .ok (some n) => (go k (bh.nextMatchingBlock n block)).map (n :: ·)
  go 1000 (bh.firstMatchingBlock (RollingHash.hash block) block)

/-- `AddAllBlocksThroughIndex`, several times. -/
def adding (bh : Option BlockHash) (l : List Int) : Option BlockHash :=
  l.foldl (fun bh i => bh.bind fun bh => (bh.addAllBlocksThroughIndex i).toOption) bh

/-! `MaxBytesZeroDoesNothing`, `MaxBytesOneMatch`, `MaxBytesOneNoMatch` -/
#guard (BlockHash.matchingBytesToLeft searchString searchString 256 256 0).toOption = some 0
#guard (BlockHash.matchingBytesToRight searchString searchString 256 256 0).toOption = some 0
#guard (BlockHash.matchingBytesToLeft searchString searchString 256 256 1).toOption = some 1
#guard (BlockHash.matchingBytesToRight searchString searchString 256 256 1).toOption = some 1
#guard (BlockHash.matchingBytesToLeft searchString searchString 256 144 1).toOption = some 0
#guard (BlockHash.matchingBytesToRight searchString searchString 256 143 1).toOption = some 0
/-! `LeftLimitedByMaxBytes`, `LeftNotLimited`, `RightLimitedByMaxBytes`, `RightNotLimited` -/
#guard (BlockHash.matchingBytesToLeft searchString searchAltered 256 256 159).toOption = some 159
#guard (BlockHash.matchingBytesToLeft searchString searchAltered 256 256 161).toOption = some 160
#guard (BlockHash.matchingBytesToLeft searchString searchAltered 256 256 0x7FFFFFFF).toOption = some 160
#guard (BlockHash.matchingBytesToRight searchString searchAltered 256 256 126).toOption = some 126
#guard (BlockHash.matchingBytesToRight searchString searchAltered 256 256 128).toOption = some 127
#guard (BlockHash.matchingBytesToRight searchString searchAltered 256 256 0x7FFFFFFF).toOption = some 127
/-! `FindFailsBeforeHashing`, `HashOneFindOne`, `HashAllFindOne`, `NonMatchingTextNotFound`, `UnalignedTextNotFound`,
`FindSixMatches` -/
#guard allMatches th (padded "y") = some []
#guard allMatches ((List.range (7 * 16 + 1)).foldl (fun bh i => bh.bind fun bh =>
  (bh.addOneIndexHash i (RollingHash.hash ((sampleText.drop i).take 16))).toOption) th) (padded "y") = some [7]
#guard allMatches dh (padded "y") = some [7]
#guard allMatches dh allQs = some []
#guard allMatches dh unalignedE = some []
#guard allMatches dh (padded "e") = some [2, 16, 21, 27, 35, 42]
/-! `AddRangeFindThreeMatches`, `AddRangeWithUnalignedIndices`, `AddEntireRangeFindSixMatches` -/
#guard allMatches (adding th [27 * 16]) (padded "e") = some [2, 16, 21]
#guard allMatches (adding th [2 * 16 + 1]) (padded "e") = some [2]
#guard allMatches (adding th [2 * 16 + 1, 27 * 16 - 3]) (padded "e") = some [2, 16, 21]
#guard allMatches (adding th [2 * 16 + 1, 27 * 16 - 3, 27 * 16 + 1]) (padded "e") = some [2, 16, 21, 27]
#guard allMatches (adding th [sampleText.length]) (padded "e") = some [2, 16, 21, 27, 35, 42]
/-! `AddingRangesInDescendingOrderNoEffect`, in a debug build -/
#guard (adding th [27 * 16 + 1, 27 * 16 - 3]).isNone
/-! `ZeroSizeSourceAccepted`, `NullSource` -/
#guard allMatches (hashOf [] 0) (padded "y") = some []
/-! `BadNextMatchingBlockReturnsNoMatch`, `AddAllBlocksThroughIndexOutOfRange`, in a debug build -/
#guard dh.all fun bh => (bh.nextMatchingBlock 0xFFFFFFFE (List.replicate 16 0x20)).toOption = none
#guard (adding th [sampleText.length + 1]).isNone

/-- `FindBestMatch`. -/
def bestMatch (bh : Option BlockHash) (hash : UInt32) (target : Bytes) (candidate : Nat) : Option Match :=
  bh.bind fun bh => (bh.findBestMatch hash target candidate {}).toOption

/-- The hash value of the block at this place. -/
def hashAt (s : Bytes) (i : Nat) : UInt32 := RollingHash.hash ((s.drop i).take 16)

/-! `FindBestMatch`, `FindBestMatchWithStartingOffset`, `BestMatchReachesEndOfDictionary`,
`BestMatchReachesStartOfDictionary`, `BestMatchWithManyMatches` -/
#guard bestMatch dh (hashAt searchString 256) searchString 256 = some ⟨11 * 16 + 15, 27 * 16, 9 * 16⟩
#guard bestMatch (hashOf sampleText 0x10000) (hashAt searchString 256) searchString 256 =
  some ⟨11 * 16 + 15, 0x10000 + 27 * 16, 9 * 16⟩
#guard bestMatch dh (hashAt searchToEnd 208) searchToEnd 208 = some ⟨7 * 16, 38 * 16, 12 * 16⟩
#guard bestMatch dh (hashAt searchToBeginning 128) searchToBeginning 128 = some ⟨7 * 16 + 15, 0, 4 * 16⟩
#guard bestMatch (hashOf (padded "ababababcab") 0) (hashAt (padded "ababc") 0) (padded "ababc") 0 =
  some ⟨5 * 16, 4 * 16, 0⟩
/-! `HashCollisionFindsNoMatch`, `WrongFootprintFindsNoMatch` -/
def collision : Bytes := searchString.take 268 ++ [0x84, 0xF1, 0x51, 0x00] ++ searchString.drop 272
#guard hashAt collision 256 = hashAt searchString 256 && collision ≠ searchString
#guard bestMatch dh (hashAt searchString 256) collision 256 = some {}
#guard bestMatch dh (RollingHash.hash (padded "e")) searchString 256 = some {}

end Vcd.Vectors
