import Verif.Proof.AddrCache

/-!
# C05, C18, C19, C20, C21: the address cache
-/

namespace Vcd.Props
open Vcd Vcd.Spec Vcd.AddrCache

/-- C21: `Init` accepts exactly the pairs of sizes with `n + s ≤ 254`; then, after any sequence of
addresses, no update has written out of bounds, NEAR slot `i` holds what RFC 3284 says it holds and
so does SAME slot `j`, and there are no other slots. -/
theorem addrCache_contents (n s : Nat) (hist : List Nat) :
    (n + s > 254 → afterHistory n s hist = none) ∧
    (n + s ≤ 254 → ∃ c, afterHistory n s hist = some c ∧
      (∀ i, c.near[i]? = if i < n then some (nearSlot n hist i) else none) ∧
      (∀ j, c.same[j]? = if j < 256 * s then some (sameSlot s hist j) else none)) := by
  rw [afterHistory_eq]
  constructor
  · intro h; rw [if_pos h]
  · intro h
    rw [if_neg (by omega)]
    refine ⟨_, rfl, near_getElem? n s hist, ?_⟩
    intro j
    rw [same_getElem?, Nat.mul_comm]

/-- The default sizes, after five addresses: the fifth has replaced the first NEAR slot. -/
example : (afterHistory 4 3 [10, 20, 30, 1000, 50]).map (·.near) = some [50, 20, 30, 1000] ∧
    (afterHistory 4 3 [10, 20, 30, 1000, 50]).bind (·.same[1000 % 768]?) = some 1000 ∧
    nearSlot 4 [10, 20, 30, 1000, 50] 0 = 50 := by decide +kernel

/-- C20: the bytes chosen by `EncodeAddress` denote the address according to the RFC, and no other
legal encoding of that address at that point (in whatever mode) has fewer bytes. The cache
afterwards is the one the RFC prescribes. (With 254 NEAR slots the claim is false, see
`addrCache_254_broken`.) -/
theorem encodeAddress_shortest (n s : Nat) (hn : n ≤ 253) (hns : n + s ≤ 254) (hist : List Nat)
    (a here : Nat) (ha : a < here) (hhere : here ≤ 2147483647) (c : AddrCache)
    (hc : afterHistory n s hist = some c) :
    ∃ mode enc bs c', c.encodeAddress a here = .ok mode enc c' ∧
      afterHistory n s (hist ++ [a]) = some c' ∧
      c'.addressBytes mode enc = some bs ∧
      AddrCode n s hist here mode bs a ∧
      (∀ mode' bs', AddrCode n s hist here mode' bs' a → bs.length ≤ bs'.length) := by
  rw [afterHistory_eq, if_neg (by omega)] at hc
  injection hc with hc; subst hc
  obtain ⟨mode, enc, bs, h1, h2, h3, _, _, _, h4⟩ :=
    encode_is_AddrCode n s hist hn hns a here ha hhere
  exact ⟨mode, enc, bs, _, h1, by rw [afterHistory_eq, if_neg (by omega)], h2, h3, h4⟩

/-- C20, the integer claim: SAME is used exactly when the address is in its SAME slot; otherwise the
encoded integer is the least of the address itself, the distance from `here`, and the offsets from
the NEAR slots at or below the address. -/
theorem encodeAddress_least (n s : Nat) (hn : n ≤ 253) (hns : n + s ≤ 254) (hist : List Nat)
    (a here : Nat) (ha : a < here) (c : AddrCache) (hc : afterHistory n s hist = some c) :
    ∃ mode enc c', c.encodeAddress a here = .ok mode enc c' ∧
      if 0 < s ∧ sameSlot s hist (a % (s * 256)) = a then
        mode = 2 + n + a % (s * 256) / 256 ∧ enc = a % 256
      else
        enc ∈ a :: (here - a) ::
          (((List.range n).map (nearSlot n hist)).filter (· ≤ a)).map (a - ·) ∧
        ∀ e ∈ a :: (here - a) ::
          (((List.range n).map (nearSlot n hist)).filter (· ≤ a)).map (a - ·), enc ≤ e := by
  rw [afterHistory_eq, if_neg (by omega)] at hc
  injection hc with hc; subst hc
  obtain ⟨mode, enc, h1, h2⟩ := encodeAddress_ofHist n s hist hn hns a here ha
  refine ⟨mode, enc, _, h1, ?_⟩
  rcases h2 with ⟨h3, h4, h5⟩ | ⟨h3, h4, h5, h6, h7⟩
  · rw [if_pos ⟨h3, h4⟩]; exact h5
  · rw [if_neg h3]
    constructor
    · rcases h7 with h7 | h7 | ⟨i, hi, _, h8, h9⟩
      · simp [h7.2]
      · simp [h7.2]
      · simp only [List.mem_cons, List.mem_map, List.mem_filter, List.mem_range,
          decide_eq_true_eq]
        exact Or.inr (Or.inr ⟨_, ⟨⟨i, hi, rfl⟩, h8⟩, h9.symm⟩)
    · intro e he
      simp only [List.mem_cons, List.mem_map, List.mem_filter, List.mem_range,
          decide_eq_true_eq] at he
      rcases he with rfl | rfl | ⟨_, ⟨⟨i, hi, rfl⟩, h8⟩, rfl⟩
      · exact h4
      · exact h5
      · exact h6 i hi h8

/-- Three encodings in one history: NEAR 0 plus 5, then SAME, then HERE. -/
example : ((afterHistory 4 3 [300]).map (·.encodeAddress 305 5000)).map
      (fun | .ok m e _ => (m, e) | .fault _ => (99, 99)) = some (2, 5) ∧
    ((afterHistory 4 3 [300]).map (·.encodeAddress 300 5000)).map
      (fun | .ok m e _ => (m, e) | .fault _ => (99, 99)) = some (7, 44) ∧
    ((afterHistory 4 3 [300]).map (·.encodeAddress 4990 5000)).map
      (fun | .ok m e _ => (m, e) | .fault _ => (99, 99)) = some (1, 10) := by decide +kernel

/-- Encode a sequence of `(address, here)` pairs: the modes used and the concatenated address
bytes. (The loop of a writer that performs these COPYs; src/encodetable.cc:238-266.) -/
def encodeAddresses : AddrCache → List (Nat × Nat) → Option (List Nat × Bytes)
  | _, [] => some ([], [])
  | c, (a, here) :: rest =>
    match c.encodeAddress a here with
    | .fault _ => none
    | .ok mode enc c' =>
      match c'.addressBytes mode enc, encodeAddresses c' rest with
      | some bs, some (modes, more) => some (mode :: modes, bs ++ more)
      | _, _ => none

/-- Decode addresses one after the other from one buffer, given the modes and the `here`
positions; the result is the addresses and the unread rest of the buffer. -/
def decodeAddresses : AddrCache → List (Nat × Nat) → Bytes → Option (List Nat × Bytes)
  | _, [], bs => some ([], bs)
  | c, (mode, here) :: rest, bs =>
    match c.decodeAddress here mode bs with
    | .ok a bs' c' => (decodeAddresses c' rest bs').map (fun r => (a :: r.1, r.2))
    | _ => none

/-- C18: with the same legal sizes on both sides, any sequence of COPY addresses, each below its
own `here`, is encoded without a fault, and decoding the modes and bytes gives back exactly the
addresses and consumes exactly the bytes, whatever follows them. -/
theorem addrCache_agreement (n s : Nat) (hn : n ≤ 253) (hns : n + s ≤ 254)
    (seq : List (Nat × Nat)) (hseq : ∀ p ∈ seq, p.1 < p.2 ∧ p.2 ≤ 2147483647)
    (c : AddrCache) (hc : (AddrCache.new n s).init = some c) :
    ∃ modes bs, encodeAddresses c seq = some (modes, bs) ∧ modes.length = seq.length ∧
      ∀ rest, decodeAddresses c (modes.zip (seq.map Prod.snd)) (bs ++ rest)
        = some (seq.map Prod.fst, rest) := by
  rw [init_new, if_neg (by omega)] at hc
  injection hc with hc; subst hc
  generalize ([] : List Nat) = hist
  induction seq generalizing hist with
  | nil => exact ⟨[], [], rfl, rfl, fun rest => rfl⟩
  | cons p seq ih =>
    obtain ⟨a, here⟩ := p
    have hp := hseq (a, here) (by simp)
    obtain ⟨mode, enc, bs, h1, h2, h3, _⟩ := encode_is_AddrCode n s hist hn hns a here hp.1 hp.2
    obtain ⟨modes, more, h4, h5, h6⟩ := ih (fun q hq => hseq q (by simp [hq])) (hist ++ [a])
    refine ⟨mode :: modes, bs ++ more, ?_, by simp [h5], ?_⟩
    · simp only [encodeAddresses, h1, h2, h4]
    · intro rest
      simp only [List.map_cons, List.zip_cons_cons, decodeAddresses]
      rw [List.append_assoc, decodeAddress_complete hn hns hp.1 hp.2 h3]
      simp [h6 rest]

/-- A run of six addresses through the default caches, using several modes. -/
example :
    encodeAddresses (ofHist 4 3 []) [(300, 5000), (305, 5000), (300, 5040), (4990, 5050), (0, 9)]
      = some ([0, 2, 7, 1, 6], [0x82, 0x2C, 5, 44, 60, 0]) := by decide +kernel

/-- C19: whatever the cache contents reached by some history, the `here` value, the mode byte and
the buffer: if `DecodeAddress` succeeds, the address is below `here`, a nonempty prefix of the
buffer was consumed, that prefix denotes the address according to the RFC, and the cache is the
RFC's cache for the extended history. -/
theorem decodeAddress_in_range (n s : Nat) (hn : n ≤ 253) (hns : n + s ≤ 254) (hist : List Nat)
    (c : AddrCache) (hc : afterHistory n s hist = some c) (here : Nat) (mode : Nat)
    (stream rest : Bytes) (a : Nat) (c' : AddrCache)
    (h : c.decodeAddress here mode stream = .ok a rest c') :
    a < here ∧ afterHistory n s (hist ++ [a]) = some c' ∧
    ∃ bs, bs ≠ [] ∧ stream = bs ++ rest ∧ AddrCode n s hist here mode bs a := by
  rw [afterHistory_eq, if_neg (by omega)] at hc
  injection hc with hc; subst hc
  obtain ⟨h1, h2, bs, h3, h4⟩ := decodeAddress_sound hn hns h
  refine ⟨h1, by rw [afterHistory_eq, if_neg (by omega), h2], bs, ?_, h3, h4⟩
  rintro rfl
  cases h4 with
  | self hv _ => obtain ⟨f, l, h, _⟩ := hv; simp at h
  | here hv _ => obtain ⟨f, l, h, _⟩ := hv; simp at h
  | near _ hv _ => obtain ⟨f, l, h, _⟩ := hv; simp at h

/-- C19, negative `here`: always an error. -/
theorem decodeAddress_negative_here (c : AddrCache) (here : Int) (h : here < 0) (mode : Nat)
    (stream : Bytes) : c.decodeAddress here mode stream = .error := by
  rw [decodeAddress.eq_def, if_pos h]

/-- Every RFC-legal address below `here` is accepted. -/
theorem decodeAddress_accepts (n s : Nat) (hn : n ≤ 253) (hns : n + s ≤ 254) (hist : List Nat)
    (c : AddrCache) (hc : afterHistory n s hist = some c) (here : Nat) (hh : here ≤ 2147483647)
    (mode : Nat) (bs rest : Bytes) (a : Nat) (ha : a < here)
    (h : AddrCode n s hist here mode bs a) :
    ∃ c', c.decodeAddress here mode (bs ++ rest) = .ok a rest c' ∧
      afterHistory n s (hist ++ [a]) = some c' := by
  rw [afterHistory_eq, if_neg (by omega)] at hc
  injection hc with hc; subst hc
  exact ⟨_, decodeAddress_complete hn hns ha hh h, by rw [afterHistory_eq, if_neg (by omega)]⟩

/-- C05, the part that is true of the address decoder: the only undefined behaviour it can reach
is the NEAR addition, and it is reached only if the parsed offset plus the cached address exceeds
`INT32_MAX`. -/
theorem decodeAddress_overflow_partial (n s : Nat) (hn : n ≤ 253) (hns : n + s ≤ 254)
    (hist : List Nat) (c : AddrCache) (hc : afterHistory n s hist = some c)
    (here : Int) (mode : Nat) (stream : Bytes) (f : Fault)
    (h : c.decodeAddress here mode stream = .fault f) :
    f = .nearOverflow ∧ ∃ i < n, mode = 2 + i ∧ ∃ enc rest, parseVarint32 stream = .ok enc rest ∧
      nearSlot n hist i + enc > 2147483647 := by
  rw [afterHistory_eq, if_neg (by omega)] at hc
  injection hc with hc; subst hc
  exact decodeAddress_fault hn hns h

/-- C05 is false: five bytes of address data overflow a signed addition in the default caches. -/
theorem decodeAddress_overflow_reachable :
    ∃ c, afterHistory 4 3 [5] = some c ∧
      c.decodeAddress 100 2 [0x87, 0xFF, 0xFF, 0xFF, 0x7F] = .fault .nearOverflow :=
  ⟨ofHist 4 3 [5], by rw [afterHistory_eq]; rfl, by decide +kernel⟩

/-- With 254 NEAR slots (which `Init` accepts), `FirstSameMode()` wraps to 0, every mode counts as a
SAME mode, and decoding any address reads `same_addresses_`, which is empty: an out-of-bounds
read. -/
theorem addrCache_254_broken (hist : List Nat) (here mode : Nat) (hm : mode < 256) (b : UInt8)
    (bs : Bytes) :
    ∃ c, afterHistory 254 0 hist = some c ∧
      c.decodeAddress here mode (b :: bs) = .fault .cacheOob := by
  refine ⟨ofHist 254 0 hist, by rw [afterHistory_eq]; rfl, ?_⟩
  have h1 : (ofHist 254 0 hist).firstSameMode = 0 := by simp [firstSameMode, ofHist]
  have h2 : (ofHist 254 0 hist).isSameMode mode = true := by
    simp only [isSameMode, lastMode, h1, Bool.and_eq_true, decide_eq_true_eq]
    simp only [ofHist]; omega
  rw [decodeAddress.eq_def, if_neg (by omega)]
  simp only [h2, if_true, same_getElem?]
  rw [if_neg (by omega)]

end Vcd.Props
