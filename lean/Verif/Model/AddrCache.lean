import Verif.Model.Varint

/-!
# The address cache (src/addrcache.h, src/addrcache.cc)

Modes and cache sizes are `unsigned char` in the code; here they are natural numbers, reduced
modulo 256 wherever the code's `unsigned char` return type reduces them.
-/

namespace Vcd

/-- `VCDiffAddressCache` (src/addrcache.h:198-208). Stored addresses are natural numbers: only
addresses already checked to be non-negative are stored. -/
structure AddrCache where
  nearSize : Nat
  sameSize : Nat
  nextSlot : Nat
  near : List Nat
  same : List Nat
  deriving DecidableEq, Repr

namespace AddrCache

/-- `VCDiffAddressCache::VCDiffAddressCache(near, same)` (src/addrcache.cc:46-50). -/
def new (nearSize sameSize : Nat) : AddrCache :=
  { nearSize, sameSize, nextSlot := 0, near := [], same := [] }

/-- `VCDiffAddressCache::VCDiffAddressCache()` (src/addrcache.cc:52-55) with
`kDefaultNearCacheSize = 4`, `kDefaultSameCacheSize = 3` (src/addrcache.h:40-41). -/
def newDefault : AddrCache := new 4 3

/-- `VCDiffAddressCache::Init` (src/addrcache.cc:71-90); `none` is the result `false`.
`VCD_MAX_MODES = 256`. -/
def init (c : AddrCache) : Option AddrCache :=
  if c.nearSize + c.sameSize > 254 then none
  else some
    { c with
      near := if c.nearSize > 0 then List.replicate c.nearSize 0 else c.near
      same := if c.sameSize > 0 then List.replicate (c.sameSize * 256) 0 else c.same
      nextSlot := 0 }

/-- `VCDiffAddressCache::FirstSameMode` (src/addrcache.h:78-80): an `unsigned char`, so the sum
wraps at 256. -/
def firstSameMode (c : AddrCache) : Nat := (2 + c.nearSize) % 256

/-- `VCDiffAddressCache::LastMode` (src/addrcache.h:85-87), wrapping like `firstSameMode`.
(`+ 255` is `- 1` modulo 256.) -/
def lastMode (c : AddrCache) : Nat := (c.firstSameMode + c.sameSize + 255) % 256

/-- `VCDiffAddressCache::IsNearMode` (src/addrcache.h:105-107). `FirstNearMode() = 2`. -/
def isNearMode (c : AddrCache) (mode : Nat) : Bool := 2 ≤ mode && mode < c.firstSameMode

/-- `VCDiffAddressCache::IsSameMode` (src/addrcache.h:109-111). -/
def isSameMode (c : AddrCache) (mode : Nat) : Bool := c.firstSameMode ≤ mode && mode ≤ c.lastMode

/-- `VCDiffAddressCache::UpdateCache` (src/addrcache.cc:105-113). `none` is a write outside one of
the two vectors. -/
def update (c : AddrCache) (address : Nat) : Option AddrCache :=
  let c1? : Option AddrCache :=
    if c.nearSize > 0 then
      if c.nextSlot < c.near.length then
        some { c with near := c.near.set c.nextSlot address,
                      nextSlot := (c.nextSlot + 1) % c.nearSize }
      else none
    else some c
  match c1? with
  | none => none
  | some c1 =>
    if c1.sameSize > 0 then
      if address % (c1.sameSize * 256) < c1.same.length then
        some { c1 with same := c1.same.set (address % (c1.sameSize * 256)) address }
      else none
    else some c1

/-- The loop over the NEAR cache in `EncodeAddress` (src/addrcache.cc:185-192): `i` is the loop
variable, `rest` the elements of `near_addresses_` from index `i` on. Returns the best mode and
best encoded address. -/
def encodeNearLoop (address : Nat) : (i : Nat) → (rest : List Nat) → Nat × Nat → Nat × Nat
  | _, [], best => best
  | i, nearAddress :: rest, (bestMode, bestEnc) =>
    -- near_encoded_address = address - NearAddress(i), tested for >= 0 and < best
    if nearAddress ≤ address ∧ address - nearAddress < bestEnc then
      encodeNearLoop address (i + 1) rest ((2 + i) % 256, address - nearAddress)
    else
      encodeNearLoop address (i + 1) rest (bestMode, bestEnc)

/-- Result of `EncodeAddress`. -/
inductive EncodeResult where
  | ok (mode : Nat) (encoded : Nat) (cache : AddrCache)
  | fault (f : Fault)
  deriving DecidableEq, Repr

/-- `VCDiffAddressCache::EncodeAddress` (src/addrcache.cc:141-197). The two argument checks are
`VCD_DFATAL` (what a build with `NDEBUG` does after them is in `Model.Release`). The `near_cache_size()`
first elements of `near_addresses_` are read; fewer than that is a fault. -/
def encodeAddress (c : AddrCache) (address here : Int) : EncodeResult :=
  if address < 0 then .fault .assertion
  else if address ≥ here then .fault .assertion
  else
    let a := address.toNat
    let h := here.toNat
    let rest : Unit → EncodeResult := fun _ =>
      -- SELF mode, then HERE mode
      let best := if h - a < a then (1, h - a) else (0, a)
      if c.near.length < c.nearSize then .fault .cacheOob
      else
        let best := encodeNearLoop a 0 (c.near.take c.nearSize) best
        match c.update a with
        | none => .fault .cacheOob
        | some c' => .ok best.1 best.2 c'
    if c.sameSize > 0 then
      let pos := a % (c.sameSize * 256)
      match c.same[pos]? with
      | none => .fault .cacheOob
      | some s =>
        if s = a then
          match c.update a with
          | none => .fault .cacheOob
          | some c' => .ok ((c.firstSameMode + (pos / 256) % 256) % 256) (pos % 256) c'
        else rest ()
    else rest ()

/-- Result of `DecodeAddress`. -/
inductive DecodeResult where
  | ok (address : Nat) (rest : Bytes) (cache : AddrCache)
  | endOfData
  | error
  | fault (f : Fault)
  deriving DecidableEq, Repr

/-- The tail of `DecodeAddress` (src/addrcache.cc:310-316): `IsDecodedAddressValid`
(src/addrcache.cc:211-224), then commit the read position and update the cache. -/
def commitDecoded (c : AddrCache) (here decoded : Int) (newPos : Bytes) : DecodeResult :=
  if decoded < 0 then .error
  else if decoded ≥ here then .error
  else
    match c.update decoded.toNat with
    | none => .fault .cacheOob
    | some c' => .ok decoded.toNat newPos c'

/-- `VCDiffAddressCache::DecodeAddress` (src/addrcache.cc:265-317). `stream` is
`[*address_stream, address_stream_end)`. In the results other than `ok` neither the stream
position nor the cache has changed. `DecodeSelfAddress`, `DecodeHereAddress`, `DecodeNearAddress`
and `DecodeSameAddress` (src/addrcache.h:113-130) are inlined; the only one of them that can
overflow an `int32_t` is the NEAR one. -/
def decodeAddress (c : AddrCache) (here : Int) (mode : Nat) (stream : Bytes) : DecodeResult :=
  if here < 0 then .error
  else
    match stream with
    | [] => .endOfData
    | b :: bs =>
      if c.isSameMode mode then
        match c.same[(mode - c.firstSameMode) * 256 + b.toNat]? with
        | none => .fault .cacheOob
        | some a => c.commitDecoded here a bs
      else
        match parseVarint32 (b :: bs) with
        | .error => .error
        | .endOfData => .endOfData
        | .ok enc rest =>
          if mode = 0 then c.commitDecoded here enc rest
          else if mode = 1 then c.commitDecoded here (here - enc) rest
          else if c.isNearMode mode then
            match c.near[mode - 2]? with
            | none => .fault .cacheOob
            | some a =>
              if a + enc > int32Max then .fault .nearOverflow
              else c.commitDecoded here ((a + enc : Nat) : Int) rest
          else .error

/-- The bytes the code table writer appends to its address section for an encoded address:
a varint, or one byte for the SAME modes (`WriteAddressAsVarintForMode`, src/addrcache.h:136-138,
used in src/encodetable.cc:260-264). -/
def addressBytes (c : AddrCache) (mode : Nat) (encoded : Nat) : Option Bytes :=
  if c.isSameMode mode then some [UInt8.ofNat encoded]
  else encodeVarint maxBytes32 encoded

/-- A cache constructed with the given sizes and initialised, then updated with the addresses of
`hist`, oldest first. `none`: `Init` refused the sizes, or some update wrote out of bounds. -/
def afterHistory (nearSize sameSize : Nat) (hist : List Nat) : Option AddrCache :=
  hist.foldl (fun c a => c.bind (·.update a)) (new nearSize sameSize).init

end AddrCache
end Vcd
