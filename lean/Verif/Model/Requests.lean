import Verif.Model.Decoder

/-!
# The memory that the decoder asks for to hold target data

`ReadHeader` makes sure that there is room for the whole target window before any of it is decoded
(src/vcdecoder.cc:1102-1107), so a few bytes of input can make the decoder ask for a lot of memory. Here
are those requests, in the order in which they are made. (Those that the decoder addresses to the output
string are in `Model.OutputString`.)
-/

namespace Vcd

/-- A request that `decoded_target_` be able to hold `bytes` bytes (src/vcdecoder.cc:1102-1107), made by
the decoder itself (`depth` 0), by the decoder it uses to read a custom code table (1), and so on.
Simplification: a request is listed even if the capacity is sufficient already. -/
structure Request where
  depth : Nat
  bytes : Nat
  deriving DecidableEq, Repr

/-- `wanted_capacity` in `ReadHeader`, if it gets that far (src/vcdecoder.cc:1073-1107); `DecodeWindow`
calls `ReadHeader` unless a header has been found before (src/vcdecoder.cc:1346-1359). -/
def Level.wanted (L : Level) (s : Bytes) : List Nat :=
  match L.win with
  | some _ => []
  | none =>
    match readHeader L s with
    | .ok hdr _ => [L.startPos + hdr.targetLen]
    | _ => []

/-- The requests of the loop over windows in `DecodeChunk` (`windowLoop`; src/vcdecoder.cc:899-920). -/
def windowLoopWanted : (fuel : Nat) → Level → Bytes → List Nat
  | 0, _, _ => []
  | fuel + 1, L, s =>
    if s = [] then []
    else
      L.wanted s ++
        match decodeWindow L s with
        | .ok L' rest =>
          if L'.reachedPlanned then []
          else if !L'.allowTarget then windowLoopWanted fuel L'.flush.1 rest
          else windowLoopWanted fuel L' rest
        | _ => []

/-- The requests of `DecodeChunk` from the loop over windows on (`decodeChunkWindows`). -/
def chunkWindowsWanted (L : Level) (s : Bytes) : List Request :=
  (windowLoopWanted (s.length + 2) L s).map fun n => ⟨0, n⟩

/-- The requests after the nested `DecodeChunk` has succeeded (`afterCodeTableChunk`;
src/vcdecoder.cc:824-847). -/
def afterCodeTableWanted (L : Level) (n : Level) (ns : List Level) (s text : Bytes) : List Request :=
  let str := L.tableString ++ text
  if str.length < codeTableSize then []
  else if !n.isComplete (!ns.isEmpty) then []
  else if h : str.length = codeTableSize then
    if n.unparsed.length > s.length then []
    else
      let rest := s.drop (s.length - n.unparsed.length)
      let t := CodeTable.ofBytes str h
      let maxMode := (L.cache.map AddrCache.lastMode).getD 0
      chunkWindowsWanted { L with tableString := [], table := if t.validate maxMode then t else L.table } rest
  else []

/-- The requests of `ReadCustomCodeTable` (src/vcdecoder.cc:808-848) and the rest of `DecodeChunk`, where
`rec` are those of a nested decoder. -/
def codeTableWanted (rec : Level → List Level → Bytes → List Request) (L : Level) (nested : List Level) (s : Bytes) :
    List Request :=
  match nested with
  | [] => chunkWindowsWanted L s
  | n :: ns =>
    (rec n ns s).map (fun r => ⟨r.depth + 1, r.bytes⟩) ++
      match Decoder.decodeChunk { top := n, nested := ns } s with
      | .ok n' ns' text => afterCodeTableWanted L n' ns' s text
      | _ => []

/-- The requests of one `DecodeChunk` (`decodeChunkFuel`; src/vcdecoder.cc:880-925). -/
def chunkRequestsFuel : (fuel : Nat) → Level → List Level → (data : Bytes) → List Request
  | 0, _, _, _ => []
  | fuel + 1, L, nested, data =>
    if !L.started then []
    else
      let s := L.unparsed ++ data
      match L.cache with
      | some _ => codeTableWanted (chunkRequestsFuel fuel) L nested s
      | none =>
        match readFileHeader s with
        | .ok hdr rest =>
          match hdr.caches with
          | none =>
            codeTableWanted (chunkRequestsFuel fuel) { L with version := hdr.version, cache := some AddrCache.newDefault }
              nested rest
          | some (near, same) =>
            codeTableWanted (chunkRequestsFuel fuel)
              { L with version := hdr.version, cache := some (AddrCache.new near same), tableString := [] }
              [Level.forCodeTable] rest
        | _ => []

/-- The requests of a sequence of `DecodeChunk` calls, whether they return `true` or `false`. -/
def Decoder.requests (d : Decoder) : (chunks : List Bytes) → List Request
  | [] => []
  | data :: cs =>
    chunkRequestsFuel (d.depthBound data) d.top d.nested data ++
      match d.call (.chunk data) with
      | .error _ => []
      | .ok (_, d') => d'.requests cs

end Vcd
