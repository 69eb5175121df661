import Verif.Model.Varint
import Verif.Spec.Varint
import Verif.Proof.Bits

/-! Lemmas about variable-length integers. -/

namespace Vcd
open Spec

theorem digitsValue_append (xs : List Nat) (y : Nat) :
    digitsValue (xs ++ [y]) = digitsValue xs * 128 + y := by
  simp [digitsValue]

theorem foldl_digits (ds : List Nat) (r : Nat) :
    ds.foldl (fun acc d => acc * 128 + d) r
      = r * 128 ^ ds.length + digitsValue ds := by
  induction ds generalizing r with
  | nil => simp [digitsValue]
  | cons d ds ih =>
    have h1 := ih (r * 128 + d)
    have h2 := ih d
    simp only [List.foldl_cons, List.length_cons, digitsValue] at *
    rw [h1]
    simp only [Nat.zero_mul, Nat.zero_add]
    rw [h2, Nat.add_mul, Nat.mul_assoc, Nat.pow_succ, Nat.mul_comm 128]
    omega

theorem varintValue_cons (b : UInt8) (bs : Bytes) :
    varintValue (b :: bs) = digit b * 128 ^ bs.length + varintValue bs := by
  simp only [varintValue, digitsValue, List.map_cons, List.foldl_cons, Nat.zero_mul, Nat.zero_add]
  rw [foldl_digits]; simp [digitsValue]

theorem varintValue_append_one (bs : Bytes) (b : UInt8) :
    varintValue (bs ++ [b]) = varintValue bs * 128 + digit b := by
  simp [varintValue, digitsValue_append]

theorem varintValue_nil : varintValue [] = 0 := rfl

theorem digit_lt (b : UInt8) : digit b < 128 := Nat.mod_lt _ (by decide)

theorem varintValue_lt (bs : Bytes) : varintValue bs < 128 ^ bs.length := by
  induction bs with
  | nil => simp [varintValue_nil]
  | cons b bs ih =>
    rw [varintValue_cons, List.length_cons, Nat.pow_succ]
    have := digit_lt b
    have : digit b * 128 ^ bs.length ≤ 127 * 128 ^ bs.length := Nat.mul_le_mul_right _ (by omega)
    omega

/-- One step of the parser, in arithmetic terms. -/
theorem parseVarintLoop_cons (m r : Nat) (b : UInt8) (bs : Bytes) :
    parseVarintLoop m r (b :: bs) =
      if b.toNat < 128 then .ok (r + digit b) bs
      else if r + digit b > m / 128 then .error
      else parseVarintLoop m ((r + digit b) * 128) bs := by
  simp only [parseVarintLoop, and_80, and_7F, digit, Nat.shiftRight_eq_div_pow,
    Nat.shiftLeft_eq]
  rfl

theorem parseVarintLoop_ok_iff (m : Nat) (hm : m % 128 = 127) (buf : Bytes) (p : Nat)
    (hp : p * 128 ≤ m) (v : Nat) (rest : Bytes) :
    parseVarintLoop m (p * 128) buf = .ok v rest ↔
      ∃ front last, buf = front ++ last :: rest ∧ (∀ b ∈ front, continues b) ∧ ¬ continues last ∧
        p * 128 ^ (front.length + 1) + varintValue (front ++ [last]) = v ∧ v ≤ m := by
  induction buf generalizing p with
  | nil => simp [parseVarintLoop]
  | cons b bs ih =>
    rw [parseVarintLoop_cons]
    have hd := digit_lt b
    split
    · rename_i hb
      constructor
      · intro h
        injection h with h1 h2
        refine ⟨[], b, by simp [h2], by simp, by simp [continues]; omega, ?_, ?_⟩
        · simp [varintValue_cons, varintValue_nil]; omega
        · omega
      · rintro ⟨front, last, h1, h2, h3, h4, h5⟩
        cases front with
        | nil =>
          simp only [List.nil_append, List.cons.injEq] at h1
          obtain ⟨rfl, rfl⟩ := h1
          simp [varintValue_cons, varintValue_nil] at h4
          rw [h4]
        | cons c cs =>
          simp only [List.cons_append, List.cons.injEq] at h1
          obtain ⟨rfl, rfl⟩ := h1
          have := h2 b (by simp)
          simp [continues] at this; omega
    · rename_i hb
      split
      · rename_i hbig
        constructor
        · intro h; cases h
        · rintro ⟨front, last, h1, h2, h3, h4, h5⟩
          exfalso
          cases front with
          | nil =>
            simp only [List.nil_append, List.cons.injEq] at h1
            obtain ⟨rfl, rfl⟩ := h1
            simp [continues] at h3; omega
          | cons c cs =>
            simp only [List.cons_append, List.cons.injEq] at h1
            obtain ⟨rfl, rfl⟩ := h1
            simp only [List.cons_append, varintValue_cons, List.length_cons, List.length_append,
              List.length_nil, Nat.zero_add] at h4
            have e : p * 128 ^ (cs.length + 1 + 1) = p * 128 * 128 ^ (cs.length + 1) := by
              rw [Nat.pow_succ 128 (cs.length + 1), Nat.mul_assoc, Nat.mul_comm (128 ^ _) 128]
            rw [e, ← Nat.add_assoc, ← Nat.add_mul] at h4
            have : 128 ≤ 128 ^ (cs.length + 1) := by
              rw [Nat.pow_succ]; have := Nat.pow_pos (n := cs.length) (show 0 < 128 by decide); omega
            have h6 : (p * 128 + digit b) * 128 ≤ (p * 128 + digit b) * 128 ^ (cs.length + 1) :=
              Nat.mul_le_mul_left _ this
            omega
      · rename_i hsmall
        rw [ih (p * 128 + digit b) (by omega)]
        constructor
        · rintro ⟨front, last, h1, h2, h3, h4, h5⟩
          refine ⟨b :: front, last, by simp [h1], ?_, h3, ?_, h5⟩
          · intro c hc
            simp only [List.mem_cons] at hc
            rcases hc with rfl | hc
            · simp only [continues]; omega
            · exact h2 c hc
          · rw [← h4]
            simp only [List.cons_append, varintValue_cons, List.length_cons, List.length_append,
              List.length_nil, Nat.zero_add]
            rw [Nat.add_mul, Nat.pow_succ 128 (front.length + 1), Nat.mul_assoc p 128,
              Nat.mul_comm (128 ^ (front.length + 1)) 128]
            omega
        · rintro ⟨front, last, h1, h2, h3, h4, h5⟩
          cases front with
          | nil =>
            simp only [List.nil_append, List.cons.injEq] at h1
            obtain ⟨rfl, rfl⟩ := h1
            simp [continues] at h3; omega
          | cons c cs =>
            simp only [List.cons_append, List.cons.injEq] at h1
            obtain ⟨rfl, rfl⟩ := h1
            refine ⟨cs, last, rfl, fun x hx => h2 x (by simp [hx]), h3, ?_, h5⟩
            rw [← h4]
            simp only [List.cons_append, varintValue_cons, List.length_cons, List.length_append,
              List.length_nil, Nat.zero_add]
            rw [Nat.add_mul, Nat.pow_succ 128 (cs.length + 1), Nat.mul_assoc p 128,
              Nat.mul_comm (128 ^ (cs.length + 1)) 128]
            omega

theorem parseVarint_ok_iff (m : Nat) (hm : m % 128 = 127) (buf : Bytes) (v : Nat) (rest : Bytes) :
    parseVarint m buf = .ok v rest ↔
      ∃ bs, buf = bs ++ rest ∧ IsVarint bs ∧ varintValue bs = v ∧ v ≤ m := by
  have := parseVarintLoop_ok_iff m hm buf 0 (by omega) v rest
  simp only [Nat.zero_mul, Nat.zero_add] at this
  rw [parseVarint, this]
  constructor
  · rintro ⟨f, l, h1, h2, h3, h4, h5⟩
    exact ⟨f ++ [l], by simp [h1], ⟨f, l, rfl, h2, h3⟩, h4, h5⟩
  · rintro ⟨bs, h1, ⟨f, l, rfl, h2, h3⟩, h4, h5⟩
    exact ⟨f, l, by simp [h1], h2, h3, h4, h5⟩

theorem parseVarintLoop_eod_iff (m : Nat) (hm : m % 128 = 127) (buf : Bytes) (p : Nat)
    (hp : p * 128 ≤ m) :
    parseVarintLoop m (p * 128) buf = .endOfData ↔
      (∀ b ∈ buf, continues b) ∧ (p * 128 ^ buf.length + varintValue buf) * 128 ≤ m := by
  induction buf generalizing p with
  | nil => simp [parseVarintLoop, varintValue_nil, hp]
  | cons b bs ih =>
    rw [parseVarintLoop_cons]
    have hd := digit_lt b
    split
    · rename_i hb
      simp [continues]; omega
    · rename_i hb
      have key : p * 128 ^ (bs.length + 1) + varintValue (b :: bs)
          = (p * 128 + digit b) * 128 ^ bs.length + varintValue bs := by
        rw [varintValue_cons, Nat.add_mul, Nat.pow_succ, Nat.mul_assoc,
          Nat.mul_comm (128 ^ bs.length) 128]; omega
      split
      · rename_i hbig
        constructor
        · intro h; cases h
        · rintro ⟨_, h⟩
          exfalso
          simp only [List.length_cons] at h
          rw [key] at h
          have : 1 ≤ 128 ^ bs.length := Nat.pow_pos (by decide)
          have := Nat.mul_le_mul_left (p * 128 + digit b) this
          omega
      · rename_i hsmall
        rw [ih (p * 128 + digit b) (by omega)]
        simp only [List.length_cons, key, List.mem_cons, forall_eq_or_imp]
        have : continues b := by simp only [continues]; omega
        simp [this]

theorem parseVarint_eod_iff (m : Nat) (hm : m % 128 = 127) (buf : Bytes) :
    parseVarint m buf = .endOfData ↔ (∀ b ∈ buf, continues b) ∧ varintValue buf * 128 ≤ m := by
  have := parseVarintLoop_eod_iff m hm buf 0 (by omega)
  simpa [parseVarint] using this

/-- More input never contradicts an answer already given. -/
theorem parseVarintLoop_ok_append (m r : Nat) (buf more rest : Bytes) (v : Nat)
    (h : parseVarintLoop m r buf = .ok v rest) :
    parseVarintLoop m r (buf ++ more) = .ok v (rest ++ more) := by
  induction buf generalizing r with
  | nil => simp [parseVarintLoop] at h
  | cons b bs ih =>
    rw [List.cons_append, parseVarintLoop_cons]
    rw [parseVarintLoop_cons] at h
    split at h
    · injection h with h1 h2; simp [*]
    · split at h
      · cases h
      · rw [if_neg (by assumption), if_neg (by assumption)]; exact ih _ h

theorem parseVarintLoop_error_append (m r : Nat) (buf more : Bytes)
    (h : parseVarintLoop m r buf = .error) :
    parseVarintLoop m r (buf ++ more) = .error := by
  induction buf generalizing r with
  | nil => simp [parseVarintLoop] at h
  | cons b bs ih =>
    rw [List.cons_append, parseVarintLoop_cons]
    rw [parseVarintLoop_cons] at h
    split at h
    · cases h
    · rw [if_neg (by assumption)]
      split at h
      · rw [if_pos (by assumption)]
      · rw [if_neg (by assumption)]; exact ih _ h

theorem parseVarint_ok_append {m : Nat} {buf more rest : Bytes} {v : Nat}
    (h : parseVarint m buf = .ok v rest) : parseVarint m (buf ++ more) = .ok v (rest ++ more) :=
  parseVarintLoop_ok_append m 0 buf more rest v h

theorem parseVarint_error_append {m : Nat} {buf more : Bytes}
    (h : parseVarint m buf = .error) : parseVarint m (buf ++ more) = .error :=
  parseVarintLoop_error_append m 0 buf more h

theorem parseVarint_ok_suffix {m : Nat} {buf rest : Bytes} {v : Nat} (hm : m % 128 = 127)
    (h : parseVarint m buf = .ok v rest) :
    v ≤ m ∧ ∃ bs, bs ≠ [] ∧ buf = bs ++ rest := by
  rw [parseVarint_ok_iff m hm] at h
  obtain ⟨bs, h1, ⟨f, l, h2, _⟩, _, h5⟩ := h
  exact ⟨h5, bs, by simp [h2], h1⟩

/-! ### Encoding -/

/-- The canonical encoding: base-128 digits of `v` in front of `acc`. -/
theorem encodeVarintLoop_spec (fuel v : Nat) (acc : Bytes) (hv : v < 128 ^ fuel) :
    ∃ front, encodeVarintLoop fuel v acc = some (front ++ acc) ∧ (∀ b ∈ front, continues b) ∧
      varintValue front = v ∧ (front = [] ↔ v = 0) ∧
      (v ≠ 0 → 128 ^ (front.length - 1) ≤ v) ∧ front.length ≤ fuel := by
  induction fuel generalizing v acc with
  | zero =>
    have : v = 0 := by simpa using hv
    subst this
    exact ⟨[], rfl, by simp, rfl, by simp, by simp, by simp⟩
  | succ fuel ih =>
    cases v with
    | zero => exact ⟨[], rfl, by simp, rfl, by simp, by simp, by simp⟩
    | succ v =>
      simp only [encodeVarintLoop]
      have hq : (v + 1) >>> 7 = (v + 1) / 128 := by simp [Nat.shiftRight_eq_div_pow]
      have hlt : (v + 1) / 128 < 128 ^ fuel := by
        rw [Nat.pow_succ] at hv
        exact (Nat.div_lt_iff_lt_mul (by decide)).2 hv
      obtain ⟨front, h1, h2, h3, h4, h5, h6⟩ :=
        ih ((v + 1) / 128) (UInt8.ofNat (((v + 1) &&& 0x7F) ||| 0x80) :: acc) hlt
      have hm : (v + 1) % 128 < 128 := Nat.mod_lt _ (by decide)
      have hb : (UInt8.ofNat (((v + 1) &&& 0x7F) ||| 0x80)).toNat = (v + 1) % 128 + 128 := by
        rw [nat_and_7F, or_80 _ hm, UInt8.toNat_ofNat']
        omega
      refine ⟨front ++ [UInt8.ofNat (((v + 1) &&& 0x7F) ||| 0x80)], ?_, ?_, ?_, ?_, ?_, ?_⟩
      · rw [hq, h1]; simp
      · intro b hb'
        simp only [List.mem_append, List.mem_singleton] at hb'
        rcases hb' with hb' | rfl
        · exact h2 b hb'
        · simp only [continues, hb]; omega
      · rw [varintValue_append_one, h3, digit, hb]
        omega
      · simp
      · intro _
        simp only [List.length_append, List.length_singleton, Nat.add_sub_cancel]
        by_cases h0 : (v + 1) / 128 = 0
        · have := h4.2 h0; subst this; simp
        · have h7 := h5 h0
          have h8 : front.length ≠ 0 := by
            intro h; exact h0 (h4.1 (List.length_eq_zero_iff.1 h))
          have : 128 ^ front.length = 128 ^ (front.length - 1) * 128 := by
            rw [← Nat.pow_succ]; congr 1; omega
          rw [this]
          have := Nat.mul_le_mul_right 128 h7
          omega
      · simp only [List.length_append, List.length_singleton]; omega

theorem encodeVarint_spec (maxBytes : Nat) (v : Nat) (h0 : 0 < maxBytes)
    (hv : v < 128 ^ maxBytes) :
    ∃ bs, encodeVarint maxBytes v = some bs ∧ IsVarint bs ∧ varintValue bs = v ∧
      bs.length ≤ maxBytes ∧ (v ≠ 0 → 128 ^ (bs.length - 1) ≤ v) ∧ (v = 0 → bs.length = 1) := by
  have hq : v >>> 7 = v / 128 := by simp [Nat.shiftRight_eq_div_pow]
  have hlt : v / 128 < 128 ^ (maxBytes - 1) := by
    apply (Nat.div_lt_iff_lt_mul (by decide)).2
    rw [← Nat.pow_succ]; rwa [Nat.succ_eq_add_one, Nat.sub_add_cancel h0]
  obtain ⟨front, h1, h2, h3, h4, h5, h6⟩ :=
    encodeVarintLoop_spec (maxBytes - 1) (v / 128) [UInt8.ofNat (v &&& 0x7F)] hlt
  have hb : (UInt8.ofNat (v &&& 0x7F)).toNat = v % 128 := by
    rw [nat_and_7F, UInt8.toNat_ofNat']; omega
  refine ⟨front ++ [UInt8.ofNat (v &&& 0x7F)], ?_, ⟨front, _, rfl, h2, ?_⟩, ?_, ?_, ?_, ?_⟩
  · simp only [encodeVarint]
    rw [if_neg (by omega)]
    simp only [Int.toNat_natCast, hq, h1]
  · simp only [continues, hb]; omega
  · rw [varintValue_append_one, h3, digit, hb]; omega
  · simp only [List.length_append, List.length_singleton]; omega
  · intro hne
    simp only [List.length_append, List.length_singleton, Nat.add_sub_cancel]
    by_cases h00 : v / 128 = 0
    · have := h4.2 h00; subst this; simp; omega
    · have h7 := h5 h00
      have h8 : front.length ≠ 0 := by
        intro h; exact h00 (h4.1 (List.length_eq_zero_iff.1 h))
      have : 128 ^ front.length = 128 ^ (front.length - 1) * 128 := by
        rw [← Nat.pow_succ]; congr 1; omega
      rw [this]
      have := Nat.mul_le_mul_right 128 h7
      omega
  · intro hz
    have := h4.2 (by omega); subst this; simp

theorem varintLengthLoop_spec (fuel v len : Nat) (hf : v < fuel) :
    ∃ k, varintLengthLoop fuel v len = len + k ∧ 1 ≤ k ∧ v < 128 ^ k ∧
      (v ≠ 0 → 128 ^ (k - 1) ≤ v) ∧ (v = 0 → k = 1) := by
  induction fuel generalizing v len with
  | zero => omega
  | succ fuel ih =>
    simp only [varintLengthLoop]
    have hq : v >>> 7 = v / 128 := by simp [Nat.shiftRight_eq_div_pow]
    rw [hq]
    split
    · rename_i h0
      refine ⟨1, rfl, by omega, by omega, ?_, fun _ => rfl⟩
      intro; simp; omega
    · rename_i h0
      obtain ⟨k, h1, h2, h3, h4, h5⟩ := ih (v / 128) (len + 1) (by omega)
      refine ⟨k + 1, by rw [h1]; omega, by omega, ?_, ?_, by omega⟩
      · rw [Nat.pow_succ]; exact (Nat.div_lt_iff_lt_mul (by decide)).1 h3
      · intro _
        have := h4 h0
        rw [Nat.add_sub_cancel]
        have e : 128 ^ k = 128 ^ (k - 1) * 128 := by
          rw [← Nat.pow_succ]; congr 1; omega
        rw [e]
        have := Nat.mul_le_mul_right 128 this
        omega

theorem length_unique {v a b : Nat} (ha : v < 128 ^ a) (ha' : v ≠ 0 → 128 ^ (a - 1) ≤ v)
    (hb : v < 128 ^ b) (hb' : v ≠ 0 → 128 ^ (b - 1) ≤ v) (h0 : v = 0 → a = b) : a = b := by
  by_cases h : v = 0
  · exact h0 h
  · have h1 := ha' h
    have h2 := hb' h
    have : a - 1 < b := (Nat.pow_lt_pow_iff_right (a := 128) (by decide)).1 (by omega)
    have : b - 1 < a := (Nat.pow_lt_pow_iff_right (a := 128) (by decide)).1 (by omega)
    omega

end Vcd
