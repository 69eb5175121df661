import Verif.Proof.Varint

/-!
# C16, C17: variable-length integers
-/

namespace Vcd.Props
open Vcd Vcd.Spec

/-- C16 for `VarintBE<int32_t>`: for every value `v` of the type, encoding succeeds within the
five-byte buffer, has the length `Length(v)` announces, is parsed back to `v` whatever bytes follow,
with exactly the encoded bytes consumed, and no buffer that parses to `v` uses fewer bytes. -/
theorem varint32_roundtrip (v : Nat) (hv : v ≤ 2147483647) :
    ∃ bs, encodeVarint maxBytes32 v = some bs ∧
      bs.length = varintLength v ∧ 1 ≤ bs.length ∧ bs.length ≤ 5 ∧
      (∀ rest, parseVarint32 (bs ++ rest) = .ok v rest) ∧
      (∀ bs' rest, parseVarint32 (bs' ++ rest) = .ok v rest → bs.length ≤ bs'.length) := by
  obtain ⟨bs, h1, h2, h3, h4, h5, h6⟩ :=
    encodeVarint_spec maxBytes32 v (by decide) (by simp [maxBytes32]; omega)
  obtain ⟨k, k1, k2, k3, k4, k5⟩ := varintLengthLoop_spec (v + 1) v 0 (by omega)
  have hpos : 1 ≤ bs.length := by
    obtain ⟨f, l, hb, _⟩ := h2; simp [hb]
  have hlen : bs.length = k := by
    have := varintValue_lt bs
    rw [h3] at this
    apply length_unique this h5 k3 k4
    intro h; rw [h6 h, k5 h]
  refine ⟨bs, h1, ?_, hpos, h4, ?_, ?_⟩
  · simp only [varintLength]
    rw [if_neg (by omega)]
    simp only [Int.toNat_natCast]
    rw [k1, hlen, Nat.zero_add]
  · intro rest
    exact (parseVarint_ok_iff _ (by decide) _ _ _).2 ⟨bs, rfl, h2, h3, hv⟩
  · intro bs' rest h
    obtain ⟨bs'', e, h7, h8, _⟩ := (parseVarint_ok_iff _ (by decide) _ _ _).1 h
    have := List.append_cancel_right e
    subst this
    by_cases h0 : v = 0
    · rw [h6 h0]; obtain ⟨f, l, hb, _⟩ := h7; simp [hb]
    · have a := h5 h0
      have b := varintValue_lt bs'
      rw [h8] at b
      have := (Nat.pow_lt_pow_iff_right (a := 128) (by decide)).1 (Nat.lt_of_le_of_lt a b)
      omega

/-- C16 for `VarintBE<int64_t>`. -/
theorem varint64_roundtrip (v : Nat) (hv : v ≤ 9223372036854775807) :
    ∃ bs, encodeVarint maxBytes64 v = some bs ∧
      bs.length = varintLength v ∧ 1 ≤ bs.length ∧ bs.length ≤ 9 ∧
      (∀ rest, parseVarint64 (bs ++ rest) = .ok v rest) ∧
      (∀ bs' rest, parseVarint64 (bs' ++ rest) = .ok v rest → bs.length ≤ bs'.length) := by
  obtain ⟨bs, h1, h2, h3, h4, h5, h6⟩ :=
    encodeVarint_spec maxBytes64 v (by decide) (by simp [maxBytes64]; omega)
  obtain ⟨k, k1, k2, k3, k4, k5⟩ := varintLengthLoop_spec (v + 1) v 0 (by omega)
  have hpos : 1 ≤ bs.length := by
    obtain ⟨f, l, hb, _⟩ := h2; simp [hb]
  have hlen : bs.length = k := by
    have := varintValue_lt bs
    rw [h3] at this
    apply length_unique this h5 k3 k4
    intro h; rw [h6 h, k5 h]
  refine ⟨bs, h1, ?_, hpos, h4, ?_, ?_⟩
  · simp only [varintLength]
    rw [if_neg (by omega)]
    simp only [Int.toNat_natCast]
    rw [k1, hlen, Nat.zero_add]
  · intro rest
    exact (parseVarint_ok_iff _ (by decide) _ _ _).2 ⟨bs, rfl, h2, h3, hv⟩
  · intro bs' rest h
    obtain ⟨bs'', e, h7, h8, _⟩ := (parseVarint_ok_iff _ (by decide) _ _ _).1 h
    have := List.append_cancel_right e
    subst this
    by_cases h0 : v = 0
    · rw [h6 h0]; obtain ⟨f, l, hb, _⟩ := h7; simp [hb]
    · have a := h5 h0
      have b := varintValue_lt bs'
      rw [h8] at b
      have := (Nat.pow_lt_pow_iff_right (a := 128) (by decide)).1 (Nat.lt_of_le_of_lt a b)
      omega

/-- The RFC's own example, 123456789, meets the hypothesis of `varint32_roundtrip`. -/
example : encodeVarint maxBytes32 123456789 = some [0xBA, 0xEF, 0x9A, 0x15] ∧
    parseVarint32 [0xBA, 0xEF, 0x9A, 0x15, 0x77] = .ok 123456789 [0x77] ∧
    varintLength 123456789 = 4 := by
  refine ⟨by decide +kernel, by decide +kernel, ?_⟩
  simp [varintLength, varintLengthLoop]

/-- A negative argument produces no bytes (and a `VCD_DFATAL`). -/
theorem varint_negative (n : Nat) (v : Int) (hv : v < 0) :
    encodeVarint n v = some [] ∧ varintLength v = 0 := by
  simp [encodeVarint, varintLength, hv]

/-- C17, success: `Parse` returns `v` and leaves `rest` exactly when the buffer is a complete
varint denoting `v`, followed by `rest`, and `v` fits the type. The type's maximum is any number
`2^(7k+7)-1`-like bound whose low seven bits are all ones; `int32_t` and `int64_t` are instances. -/
theorem varint_parse_ok (m : Nat) (hm : m = 2147483647 ∨ m = 9223372036854775807)
    (buf rest : Bytes) (v : Nat) :
    parseVarint m buf = .ok v rest ↔
      ∃ bs, buf = bs ++ rest ∧ IsVarint bs ∧ varintValue bs = v ∧ v ≤ m :=
  parseVarint_ok_iff m (by rcases hm with rfl | rfl <;> rfl) buf v rest

/-- C17, end of data: exactly when every byte of the buffer announces a further byte and at least
one continuation would still fit the type. -/
theorem varint_parse_endOfData (m : Nat) (hm : m = 2147483647 ∨ m = 9223372036854775807)
    (buf : Bytes) :
    parseVarint m buf = .endOfData ↔
      (∀ b ∈ buf, continues b) ∧ varintValue buf * 128 ≤ m :=
  parseVarint_eod_iff m (by rcases hm with rfl | rfl <;> rfl) buf

/-- C17, error: exactly when the buffer starts with continuation bytes whose digits already make
every completion too large for the type, i.e. no way of continuing that prefix parses. -/
theorem varint_parse_error (m : Nat) (hm : m = 2147483647 ∨ m = 9223372036854775807)
    (buf : Bytes) :
    parseVarint m buf = .error ↔
      ∃ front rest, buf = front ++ rest ∧ (∀ b ∈ front, continues b) ∧
        varintValue front * 128 > m := by
  have hm' : m % 128 = 127 := by rcases hm with rfl | rfl <;> rfl
  constructor
  · intro h
    have key : ∀ (buf : Bytes) (p : Nat), p * 128 ≤ m →
        parseVarintLoop m (p * 128) buf = .error →
        ∃ front rest, buf = front ++ rest ∧ (∀ b ∈ front, continues b) ∧
          (p * 128 ^ front.length + varintValue front) * 128 > m := by
      intro buf
      induction buf with
      | nil => intro p _ h; simp [parseVarintLoop] at h
      | cons b bs ih =>
        intro p hp h
        rw [parseVarintLoop_cons] at h
        have hd := digit_lt b
        split at h
        · cases h
        · rename_i hb
          split at h
          · refine ⟨[b], bs, rfl, by simp [continues]; omega, ?_⟩
            simp [varintValue_cons, varintValue_nil]; omega
          · obtain ⟨f, r, h1, h2, h3⟩ := ih (p * 128 + digit b) (by omega) h
            refine ⟨b :: f, r, by simp [h1], ?_, ?_⟩
            · intro c hc
              simp only [List.mem_cons] at hc
              rcases hc with rfl | hc
              · simp only [continues]; omega
              · exact h2 c hc
            · rw [varintValue_cons, List.length_cons, Nat.pow_succ,
                Nat.mul_comm (128 ^ f.length) 128, ← Nat.mul_assoc, ← Nat.add_assoc, ← Nat.add_mul]
              exact h3
    obtain ⟨f, r, h1, h2, h3⟩ := key buf 0 (by omega) (by simpa [parseVarint] using h)
    exact ⟨f, r, h1, h2, by simpa using h3⟩
  · rintro ⟨front, rest, rfl, h2, h3⟩
    have : parseVarint m front = .error := by
      cases h : parseVarint m front with
      | error => rfl
      | endOfData =>
        have := ((parseVarint_eod_iff m hm' front).1 h).2; omega
      | ok v r =>
        obtain ⟨bs, e, ⟨f, l, e2, _, h5⟩, _⟩ := (parseVarint_ok_iff m hm' front v r).1 h
        exact absurd (h2 l (by simp [e, e2])) h5
    exact parseVarint_error_append this

/-- C17, stability: once `Parse` has answered with a value or an error, giving it a longer buffer
with the same beginning does not change the answer. -/
theorem varint_parse_stable (m : Nat) (buf more : Bytes) :
    (∀ v rest, parseVarint m buf = .ok v rest → parseVarint m (buf ++ more) = .ok v (rest ++ more)) ∧
    (parseVarint m buf = .error → parseVarint m (buf ++ more) = .error) :=
  ⟨fun _ _ => parseVarint_ok_append, parseVarint_error_append⟩

/-- C17: the signed accumulator never overflows: if the loop is still running after the bytes
`front`, then adding the next digit gives at most the type's maximum. -/
theorem varint_accumulator_in_range (m : Nat) (hm : m = 2147483647 ∨ m = 9223372036854775807)
    (front : Bytes) (last : UInt8)
    (hread : parseVarint m front = .endOfData) :
    varintValue (front ++ [last]) ≤ m := by
  have hm' : m % 128 = 127 := by rcases hm with rfl | rfl <;> rfl
  have := ((parseVarint_eod_iff m hm' front).1 hread).2
  rw [varintValue_append_one]
  have := digit_lt last
  omega

/-- Non-vacuity: a four-byte overlong-but-legal zero, an incomplete and an overflowing buffer. -/
example : parseVarint32 [0x80, 0x80, 0x80, 0x80, 0x80, 0x80, 0x05] = .ok 5 [] ∧
    parseVarint32 [0x87, 0xFF, 0xFF, 0xFF, 0x7F] = .ok 2147483647 [] ∧
    parseVarint32 [0x88, 0x80, 0x80, 0x80] = .error ∧
    parseVarint32 [0x87, 0xFF] = .endOfData := by decide +kernel

end Vcd.Props
