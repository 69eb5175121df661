import Verif.Model.Adler
import Verif.Spec.Adler

/-! Lemmas about Adler-32. -/

namespace Vcd
open Spec

theorem adlerRun_append (s : Nat × Nat) (a b : Bytes) :
    adlerRun s (a ++ b) = adlerRun (adlerRun s a) b := by
  simp [adlerRun]

theorem adlerRun_cons (s : Nat × Nat) (b : UInt8) (bs : Bytes) :
    adlerRun s (b :: bs) = adlerRun (adlerStep s b) bs := rfl

theorem adlerRun_lt (s : Nat × Nat) (h : s.1 < 65521 ∧ s.2 < 65521) (bs : Bytes) :
    (adlerRun s bs).1 < 65521 ∧ (adlerRun s bs).2 < 65521 := by
  induction bs generalizing s with
  | nil => exact h
  | cons b bs ih =>
    rw [adlerRun_cons]
    apply ih
    simp only [adlerStep]
    exact ⟨Nat.mod_lt _ (by decide), Nat.mod_lt _ (by decide)⟩

/-- Deferring the reductions to the end gives the same residues. -/
theorem adlerExact_mod (bs : Bytes) (s : Nat × Nat) :
    ((adlerExact s bs).1 % 65521, (adlerExact s bs).2 % 65521)
      = adlerRun (s.1 % 65521, s.2 % 65521) bs := by
  induction bs generalizing s with
  | nil => rfl
  | cons b bs ih =>
    rw [adlerRun_cons]
    simp only [adlerExact]
    rw [ih]
    congr 1
    simp only [adlerStep, Prod.mk.injEq]
    constructor <;> omega

theorem adlerExact_bound (bs : Bytes) (s : Nat × Nat) :
    (adlerExact s bs).1 ≤ s.1 + 255 * bs.length ∧
    2 * (adlerExact s bs).2 ≤ 2 * s.2 + 2 * (bs.length * s.1) + 255 * (bs.length * (bs.length + 1)) := by
  induction bs generalizing s with
  | nil => simp [adlerExact]
  | cons b bs ih =>
    obtain ⟨h1, h2⟩ := ih (s.1 + b.toNat, s.2 + (s.1 + b.toNat))
    have hb : b.toNat ≤ 255 := by have := b.toNat_lt; omega
    simp only [adlerExact, List.length_cons] at *
    refine ⟨by omega, Nat.le_trans h2 ?_⟩
    have e1 : (bs.length + 1) * s.1 = bs.length * s.1 + s.1 := Nat.succ_mul _ _
    have e2 : (bs.length + 1) * (bs.length + 1 + 1)
        = bs.length * (bs.length + 1) + 2 * (bs.length + 1) := by
      rw [Nat.mul_add, Nat.mul_one, Nat.succ_mul]; omega
    have e3 : bs.length * (s.1 + b.toNat) = bs.length * s.1 + bs.length * b.toNat :=
      Nat.mul_add _ _ _
    have e4 : bs.length * b.toNat ≤ bs.length * 255 := Nat.mul_le_mul_left _ hb
    rw [e1, e2, e3]
    omega

theorem adlerExact_append (a b : Bytes) (s : Nat × Nat) :
    adlerExact s (a ++ b) = adlerExact (adlerExact s a) b := by
  induction a generalizing s with
  | nil => rfl
  | cons x a ih => exact ih _

theorem adlerExact_le (bs : Bytes) (s : Nat × Nat) :
    s.1 ≤ (adlerExact s bs).1 ∧ s.2 ≤ (adlerExact s bs).2 := by
  induction bs generalizing s with
  | nil => exact ⟨Nat.le_refl _, Nat.le_refl _⟩
  | cons b bs ih =>
    have := ih (s.1 + b.toNat, s.2 + (s.1 + b.toNat))
    simp only [adlerExact] at *
    omega

/-- Sums that stay below 2^32 do not wrap. -/
theorem adlerSums_exact (bs : Bytes) (s : Nat × Nat)
    (h1 : (adlerExact s bs).1 < 4294967296) (h2 : (adlerExact s bs).2 < 4294967296) :
    adlerSums s bs = adlerExact s bs := by
  induction bs generalizing s with
  | nil => rfl
  | cons b bs ih =>
    have hle := adlerExact_le bs (s.1 + b.toNat, s.2 + (s.1 + b.toNat))
    simp only [adlerExact, adlerSums] at *
    rw [Nat.mod_eq_of_lt (a := s.1 + b.toNat) (by omega), Nat.mod_eq_of_lt (by omega)]
    exact ih _ h1 h2

/-- Within a block of `NMAX` bytes nothing wraps. -/
theorem adlerExact_small (bs : Bytes) (s : Nat × Nat) (h : s.1 < 65521 ∧ s.2 < 65521)
    (hb : bs.length ≤ adlerNmax) :
    (adlerExact s bs).1 < 4294967296 ∧ (adlerExact s bs).2 < 4294967296 := by
  have hb : bs.length ≤ 5552 := hb
  obtain ⟨k1, k2⟩ := adlerExact_bound bs s
  have h1 : bs.length * s.1 ≤ 5552 * 65520 := Nat.mul_le_mul hb (by omega)
  have h2 : bs.length * (bs.length + 1) ≤ 5552 * 5553 := Nat.mul_le_mul hb (by omega)
  omega

theorem adlerSums_mod (bs : Bytes) (s : Nat × Nat) (h : s.1 < 65521 ∧ s.2 < 65521)
    (hb : bs.length ≤ adlerNmax) :
    ((adlerSums s bs).1 % 65521, (adlerSums s bs).2 % 65521) = adlerRun s bs := by
  obtain ⟨k1, k2⟩ := adlerExact_small bs s h hb
  rw [adlerSums_exact bs s k1 k2, adlerExact_mod, Nat.mod_eq_of_lt h.1, Nat.mod_eq_of_lt h.2]

theorem adlerBlocks_spec (fuel : Nat) (buf : Bytes) (s : Nat × Nat)
    (h : s.1 < 65521 ∧ s.2 < 65521) (hf : buf.length ≤ fuel) :
    adlerBlocks fuel s buf = adlerRun s buf := by
  induction fuel generalizing buf s with
  | zero =>
    have : buf = [] := List.length_eq_zero_iff.1 (by omega)
    subst this; rfl
  | succ fuel ih =>
    simp only [adlerBlocks]
    split
    · rename_i hge
      simp only [adlerBase]
      rw [adlerSums_mod _ _ h (by rw [List.length_take]; exact Nat.min_le_left ..), ih _ _ (adlerRun_lt s h _) (by
        simp only [List.length_drop, adlerNmax] at *; omega), ← adlerRun_append,
        List.take_append_drop]
    · split
      · simp only [adlerBase]; rw [adlerSums_mod _ _ h (by omega)]
      · have : buf = [] := List.length_eq_zero_iff.1 (by omega)
        subst this; rfl

theorem adler_recombine (low high : Nat) (h : low < 65536) :
    low ||| (high <<< 16) = adlerValue (low, high) := by
  have e := Nat.two_pow_add_eq_or_of_lt (i := 16) h high
  rw [Nat.or_comm, Nat.shiftLeft_eq, Nat.mul_comm high, ← e]
  simp only [adlerValue]
  omega

theorem adler_split (low high : Nat) (hl : low < 65536) (hh : high < 65536) :
    adlerValue (low, high) &&& 0xffff = low ∧ (adlerValue (low, high) >>> 16) &&& 0xffff = high := by
  have e : ∀ x : Nat, x &&& 0xffff = x % 65536 := fun x => Nat.and_two_pow_sub_one_eq_mod x 16
  rw [e, e, Nat.shiftRight_eq_div_pow, adlerValue]
  simp only
  constructor <;> omega

theorem adler32_spec (low high : Nat) (hl : low < 65521) (hh : high < 65521) (buf : Bytes) :
    adler32 (adlerValue (low, high)) buf = adlerValue (adlerRun (low, high) buf) := by
  obtain ⟨e1, e2⟩ := adler_split low high (by omega) (by omega)
  have hlong : ∀ buf : Bytes,
      (if buf.length < 16 then
        (if (adlerSums (low, high) buf).1 ≥ adlerBase then (adlerSums (low, high) buf).1 - adlerBase
          else (adlerSums (low, high) buf).1) |||
          (((adlerSums (low, high) buf).2 % adlerBase) <<< 16)
       else (adlerBlocks buf.length (low, high) buf).1 |||
        ((adlerBlocks buf.length (low, high) buf).2 <<< 16))
      = adlerValue (adlerRun (low, high) buf) := by
    intro buf
    split
    · rename_i hlen
      have hnm : buf.length ≤ adlerNmax := by simp only [adlerNmax]; omega
      have hm := adlerSums_mod buf (low, high) ⟨hl, hh⟩ hnm
      have hb := (adlerExact_bound buf (low, high)).1
      have hsm := adlerExact_small buf (low, high) ⟨hl, hh⟩ hnm
      rw [← adlerSums_exact _ _ hsm.1 hsm.2] at hb
      simp only at hb
      have e : (if (adlerSums (low, high) buf).1 ≥ adlerBase then
          (adlerSums (low, high) buf).1 - adlerBase else (adlerSums (low, high) buf).1)
          = (adlerSums (low, high) buf).1 % 65521 := by
        generalize (adlerSums (low, high) buf).1 = x at *
        unfold adlerBase
        by_cases hx : x ≥ 65521
        · rw [if_pos hx]; omega
        · rw [if_neg hx]; omega
      rw [e, adler_recombine _ _ (by omega), ← hm]
      rfl
    · rw [adlerBlocks_spec _ _ _ ⟨hl, hh⟩ (Nat.le_refl _)]
      have := adlerRun_lt (low, high) ⟨hl, hh⟩ buf
      rw [adler_recombine _ _ (by omega)]
  match buf with
  | [] => simp only [adler32, e1, e2]; exact hlong []
  | [b] =>
    have hb : b.toNat < 256 := b.toNat_lt
    simp only [adler32, e1, e2, adlerRun, List.foldl_cons, List.foldl_nil, adlerStep, adlerBase]
    have c1 : (if low + b.toNat ≥ 65521 then low + b.toNat - 65521 else low + b.toNat)
        = (low + b.toNat) % 65521 := by split <;> omega
    rw [c1]
    have c2 : (if high + (low + b.toNat) % 65521 ≥ 65521 then
        high + (low + b.toNat) % 65521 - 65521 else high + (low + b.toNat) % 65521)
        = (high + (low + b.toNat) % 65521) % 65521 := by split <;> omega
    rw [c2, adler_recombine _ _ (by omega)]
  | a :: b :: rest => simp only [adler32, e1, e2]; exact hlong (a :: b :: rest)

theorem adlerValue_inj {a b : Nat × Nat} (ha : a.1 < 65521) (hb : b.1 < 65521)
    (h : adlerValue a = adlerValue b) : a = b := by
  simp only [adlerValue] at h
  apply Prod.ext <;> omega

/-- The low half is the sum of the bytes. -/
theorem adlerRun_low (bs : Bytes) (s : Nat × Nat) (hs : s.1 < 65521) :
    (adlerRun s bs).1 = (s.1 + (bs.map UInt8.toNat).sum) % 65521 := by
  induction bs generalizing s with
  | nil => simp [adlerRun]; omega
  | cons b bs ih =>
    rw [adlerRun_cons, ih _ (by simp only [adlerStep]; omega)]
    simp only [adlerStep, List.map_cons, List.sum_cons]
    omega

theorem computeAdler32_eq (buf : Bytes) (h : buf.length < 4294967296) :
    computeAdler32 buf = adlerOf buf := by
  simp only [computeAdler32, updateAdler32, Nat.mod_eq_of_lt h, List.take_length]
  exact adler32_spec 0 0 (by decide) (by decide) buf

/-- The sum of the bytes, each taken as often as there are bytes from it to the end. -/
def weighted : Bytes → Nat
  | [] => 0
  | b :: bs => (bs.length + 1) * b.toNat + weighted bs

theorem weighted_append (a b : Bytes) :
    weighted (a ++ b) = weighted a + b.length * (a.map UInt8.toNat).sum + weighted b := by
  induction a with
  | nil => simp [weighted]
  | cons x a ih =>
    simp only [List.cons_append, weighted, ih, List.length_append, List.map_cons, List.sum_cons]
    grind

/-- The high half is the weighted sum of the bytes. -/
theorem adlerRun_high (bs : Bytes) (s : Nat × Nat) (hs : s.2 < 65521) :
    (adlerRun s bs).2 = (s.2 + bs.length * s.1 + weighted bs) % 65521 := by
  induction bs generalizing s with
  | nil => simp [adlerRun, weighted]; omega
  | cons b bs ih =>
    rw [adlerRun_cons, ih _ (by simp only [adlerStep]; omega)]
    simp only [adlerStep, List.length_cons, weighted]
    have hq := Nat.div_add_mod (s.1 + b.toNat) 65521
    generalize (s.1 + b.toNat) / 65521 = q at hq
    generalize (s.1 + b.toNat) % 65521 = r at hq
    have e : s.2 + (bs.length + 1) * s.1 + ((bs.length + 1) * b.toNat + weighted bs) =
        (s.2 + r + bs.length * r + weighted bs) + 65521 * ((bs.length + 1) * q) := by
      have : (bs.length + 1) * s.1 + (bs.length + 1) * b.toNat = (bs.length + 1) * (65521 * q + r) := by rw [hq]; grind
      grind
    rw [e, Nat.add_mul_mod_self_left, Nat.add_assoc, Nat.mod_add_mod]
    congr 1
    omega

theorem byte_coprime : ∀ n : Fin 256, n.val ≠ 0 → Nat.gcd 65521 n.val = 1 := by decide +kernel

/-- Two changes at a distance that is no multiple of 65521 do not cancel out. -/
theorem adler_shift {r δ d : Nat} (h0 : δ ≠ 0) (h1 : δ < 256) (h : (r + δ * d) % 65521 = r % 65521) : d % 65521 = 0 := by
  have h2 : (δ * d) % 65521 = 0 := by omega
  have h3 : Nat.Coprime 65521 δ := byte_coprime ⟨δ, h1⟩ h0
  exact Nat.mod_eq_zero_of_dvd (h3.dvd_of_dvd_mul_left (Nat.dvd_of_mod_eq_zero h2))

/-- The checksums before and after a change of two bytes, at the distance `mid.length + 1`. -/
theorem adler_two (front mid rest : Bytes) (x y x' y' : UInt8) (h : x'.toNat ≤ x.toNat)
    (hlen : (front ++ x :: (mid ++ y :: rest)).length < 4294967296) :
    computeAdler32 (front ++ x :: (mid ++ y :: rest)) = computeAdler32 (front ++ x' :: (mid ++ y' :: rest)) ↔
      x.toNat + y.toNat = x'.toNat + y'.toNat ∧ (x = x' ∨ (mid.length + 1) % 65521 = 0) := by
  have hlen' : (front ++ x' :: (mid ++ y' :: rest)).length < 4294967296 := by simpa using hlen
  rw [computeAdler32_eq _ hlen, computeAdler32_eq _ hlen']
  have h1 := adlerRun_lt (0, 0) ⟨by decide, by decide⟩ (front ++ x :: (mid ++ y :: rest))
  have h2 := adlerRun_lt (0, 0) ⟨by decide, by decide⟩ (front ++ x' :: (mid ++ y' :: rest))
  have hx := x.toNat_lt
  have hy := y.toNat_lt
  have hy' := y'.toNat_lt
  have hxx : x = x' ↔ x.toNat - x'.toNat = 0 := by
    rw [← UInt8.toNat_inj]; omega
  rw [hxx]
  obtain ⟨δ, hδ⟩ : ∃ δ, δ = x.toNat - x'.toNat := ⟨_, rfl⟩
  rw [← hδ]
  have ex : x.toNat = x'.toNat + δ := by omega
  have low : ∀ z w : UInt8, (adlerRun (0, 0) (front ++ z :: (mid ++ w :: rest))).1 =
      (((front.map UInt8.toNat).sum + (mid.map UInt8.toNat).sum + (rest.map UInt8.toNat).sum) + (z.toNat + w.toNat)) % 65521 := by
    intro z w
    rw [adlerRun_low _ _ (by decide)]
    simp only [List.map_append, List.map_cons, List.sum_append, List.sum_cons]
    congr 1; omega
  have high : ∀ z w : UInt8, (adlerRun (0, 0) (front ++ z :: (mid ++ w :: rest))).2 =
      ((weighted front + (mid.length + (rest.length + 1) + 1) * (front.map UInt8.toNat).sum + weighted mid +
        (rest.length + 1) * (mid.map UInt8.toNat).sum + weighted rest) +
        ((mid.length + 1) * z.toNat + (rest.length + 1) * (z.toNat + w.toNat))) % 65521 := by
    intro z w
    rw [adlerRun_high _ _ (by decide)]
    simp only [weighted_append, weighted, List.length_append, List.length_cons]
    congr 1; grind
  constructor
  · intro he
    have h3 := adlerValue_inj h1.1 h2.1 he
    have h4 := congrArg Prod.fst h3
    have h5 := congrArg Prod.snd h3
    rw [low, low] at h4
    rw [high, high] at h5
    have hs : x.toNat + y.toNat = x'.toNat + y'.toNat := by omega
    refine ⟨hs, ?_⟩
    rcases Nat.eq_zero_or_pos δ with h0 | h0
    · exact Or.inl h0
    · right
      rw [hs] at h5
      generalize weighted front + (mid.length + (rest.length + 1) + 1) * (front.map UInt8.toNat).sum + weighted mid +
        (rest.length + 1) * (mid.map UInt8.toNat).sum + weighted rest = K at h5
      refine adler_shift (r := K + ((mid.length + 1) * x'.toNat + (rest.length + 1) * (x'.toNat + y'.toNat))) (δ := δ)
        (by omega) (by omega) ?_
      rw [← h5, ex]
      congr 1
      grind
  · rintro ⟨hs, hd⟩
    have : adlerRun (0, 0) (front ++ x :: (mid ++ y :: rest)) = adlerRun (0, 0) (front ++ x' :: (mid ++ y' :: rest)) := by
      apply Prod.ext
      · rw [low, low, hs]
      · rw [high, high, hs]
        rcases hd with hd | hd
        · simp only [ex, hd, Nat.add_zero]
        · obtain ⟨k, hk⟩ := Nat.dvd_of_mod_eq_zero hd
          rw [ex, hk]
          generalize weighted front + (mid.length + (rest.length + 1) + 1) * (front.map UInt8.toNat).sum + weighted mid +
            (rest.length + 1) * (mid.map UInt8.toNat).sum + weighted rest = K
          have e : K + (65521 * k * (x'.toNat + δ) + (rest.length + 1) * (x'.toNat + y'.toNat)) =
              (K + (65521 * k * x'.toNat + (rest.length + 1) * (x'.toNat + y'.toNat))) + 65521 * (k * δ) := by grind
          rw [e, Nat.add_mul_mod_self_left]
    rw [adlerOf, adlerOf, this]

/-! ## Without division -/

theorem ladder_step (a k : Nat) (h : a < 65521 * 2 ^ (k + 1)) :
    (if a ≥ adlerBase <<< k then a - adlerBase <<< k else a) % 65521 = a % 65521 ∧
    (if a ≥ adlerBase <<< k then a - adlerBase <<< k else a) < 65521 * 2 ^ k := by
  rw [Nat.shiftLeft_eq, show adlerBase = 65521 from rfl]
  rw [Nat.pow_succ] at h
  generalize 2 ^ k = m at h
  by_cases hle : a ≥ 65521 * m
  · rw [if_pos hle]
    exact ⟨by omega, by omega⟩
  · rw [if_neg hle]
    exact ⟨rfl, by omega⟩

theorem modNoDivide_eq (a : Nat) (h : a < 4294967296) : modNoDivide a = a % 65521 := by
  have key : ∀ (n a : Nat), a < 65521 * 2 ^ n →
      ((List.range n).reverse.foldl (fun a k => if a ≥ adlerBase <<< k then a - adlerBase <<< k else a) a) = a % 65521 := by
    intro n
    induction n with
    | zero => intro a h; simp at h; simp [Nat.mod_eq_of_lt h]
    | succ n ih =>
      intro a h
      obtain ⟨h1, h2⟩ := ladder_step a n h
      rw [List.range_succ, List.reverse_append, List.reverse_singleton, List.singleton_append, List.foldl_cons, ih _ h2, h1]
  exact key 17 a (by omega)

theorem mod4NoDivide_eq (a : Nat) (h : a < 2096672) : mod4NoDivide a = a % 65521 := by
  unfold mod4NoDivide
  obtain ⟨h1, k1⟩ := ladder_step a 4 (by omega)
  simp only [List.foldl_cons, List.foldl_nil]
  generalize (if a ≥ adlerBase <<< 4 then a - adlerBase <<< 4 else a) = a1 at *
  obtain ⟨h2, k2⟩ := ladder_step a1 3 k1
  generalize (if a1 ≥ adlerBase <<< 3 then a1 - adlerBase <<< 3 else a1) = a2 at *
  obtain ⟨h3, k3⟩ := ladder_step a2 2 k2
  generalize (if a2 ≥ adlerBase <<< 2 then a2 - adlerBase <<< 2 else a2) = a3 at *
  obtain ⟨h4, k4⟩ := ladder_step a3 1 k3
  generalize (if a3 ≥ adlerBase <<< 1 then a3 - adlerBase <<< 1 else a3) = a4 at *
  obtain ⟨h5, k5⟩ := ladder_step a4 0 k4
  generalize (if a4 ≥ adlerBase <<< 0 then a4 - adlerBase <<< 0 else a4) = a5 at *
  omega

theorem adlerSums_lt (bs : Bytes) (s : Nat × Nat) (h : s.1 < 4294967296 ∧ s.2 < 4294967296) :
    (adlerSums s bs).1 < 4294967296 ∧ (adlerSums s bs).2 < 4294967296 := by
  induction bs generalizing s with
  | nil => exact h
  | cons b bs ih => exact ih _ ⟨Nat.mod_lt _ (by decide), Nat.mod_lt _ (by decide)⟩

theorem adlerBlocksNoDivide_eq (fuel : Nat) (buf : Bytes) (s : Nat × Nat) (h : s.1 < 4294967296 ∧ s.2 < 4294967296) :
    adlerBlocksNoDivide fuel s buf = adlerBlocks fuel s buf := by
  induction fuel generalizing buf s with
  | zero => rfl
  | succ fuel ih =>
    have k1 := adlerSums_lt (buf.take adlerNmax) s h
    have k2 := adlerSums_lt buf s h
    have e : adlerBase = 65521 := rfl
    simp only [adlerBlocksNoDivide, adlerBlocks]
    rw [modNoDivide_eq _ k1.1, modNoDivide_eq _ k1.2, modNoDivide_eq _ k2.1, modNoDivide_eq _ k2.2, e]
    by_cases h1 : buf.length ≥ adlerNmax
    · rw [if_pos h1, if_pos h1]
      exact ih _ _ ⟨by simp only; omega, by simp only; omega⟩
    · rw [if_neg h1, if_neg h1]

theorem adler32NoDivide_eq (adler : Nat) (buf : Bytes) : adler32NoDivide adler buf = adler32 adler buf := by
  have e : ∀ x : Nat, x &&& 0xffff = x % 65536 := fun x => Nat.and_two_pow_sub_one_eq_mod x 16
  have hlong : ∀ buf : Bytes, buf.length < 16 →
      mod4NoDivide (adlerSums (adler &&& 0xffff, (adler >>> 16) &&& 0xffff) buf).2 =
        (adlerSums (adler &&& 0xffff, (adler >>> 16) &&& 0xffff) buf).2 % adlerBase := by
    intro buf hl
    rw [e, e]
    generalize hs : (adler % 65536, (adler >>> 16) % 65536) = s
    have h1 : s.1 < 65536 := by rw [← hs]; simp only; omega
    have h2 : s.2 < 65536 := by rw [← hs]; simp only; omega
    obtain ⟨b1, b2⟩ := adlerExact_bound buf s
    have m1 : buf.length * s.1 ≤ 15 * 65535 := Nat.mul_le_mul (by omega) (by omega)
    have m2 : buf.length * (buf.length + 1) ≤ 15 * 16 := Nat.mul_le_mul (by omega) (by omega)
    rw [adlerSums_exact buf s (by omega) (by omega)]
    exact mod4NoDivide_eq _ (by omega)
  have hblocks : ∀ buf : Bytes, adlerBlocksNoDivide buf.length (adler &&& 0xffff, (adler >>> 16) &&& 0xffff) buf =
      adlerBlocks buf.length (adler &&& 0xffff, (adler >>> 16) &&& 0xffff) buf := by
    intro buf
    apply adlerBlocksNoDivide_eq
    rw [e, e]
    exact ⟨by simp only; omega, by simp only; omega⟩
  have hany : ∀ buf : Bytes, (if buf.length < 16 then
        (if (adlerSums (adler &&& 0xffff, (adler >>> 16) &&& 0xffff) buf).1 ≥ adlerBase then
          (adlerSums (adler &&& 0xffff, (adler >>> 16) &&& 0xffff) buf).1 - adlerBase
        else (adlerSums (adler &&& 0xffff, (adler >>> 16) &&& 0xffff) buf).1) |||
          (mod4NoDivide (adlerSums (adler &&& 0xffff, (adler >>> 16) &&& 0xffff) buf).2 <<< 16)
      else (adlerBlocksNoDivide buf.length (adler &&& 0xffff, (adler >>> 16) &&& 0xffff) buf).1 |||
        ((adlerBlocksNoDivide buf.length (adler &&& 0xffff, (adler >>> 16) &&& 0xffff) buf).2 <<< 16)) =
      (if buf.length < 16 then
        (if (adlerSums (adler &&& 0xffff, (adler >>> 16) &&& 0xffff) buf).1 ≥ adlerBase then
          (adlerSums (adler &&& 0xffff, (adler >>> 16) &&& 0xffff) buf).1 - adlerBase
        else (adlerSums (adler &&& 0xffff, (adler >>> 16) &&& 0xffff) buf).1) |||
          (((adlerSums (adler &&& 0xffff, (adler >>> 16) &&& 0xffff) buf).2 % adlerBase) <<< 16)
      else (adlerBlocks buf.length (adler &&& 0xffff, (adler >>> 16) &&& 0xffff) buf).1 |||
        ((adlerBlocks buf.length (adler &&& 0xffff, (adler >>> 16) &&& 0xffff) buf).2 <<< 16)) := by
    intro buf
    rw [hblocks]
    by_cases hl : buf.length < 16
    · rw [if_pos hl, if_pos hl, hlong buf hl]
    · rw [if_neg hl, if_neg hl]
  match buf with
  | [] => exact hany []
  | [b] => rfl
  | b :: c :: buf => exact hany (b :: c :: buf)

/-! ## Combining checksums -/

theorem adlerRun_combine (a b : Bytes) :
    let s1 := adlerRun (1, 0) a
    let s2 := adlerRun (1, 0) b
    let rem := b.length % 65521
    (s1.1 + (s2.1 + 65521 - 1)) % 65521 = (adlerRun (1, 0) (a ++ b)).1 ∧
    ((rem * s1.1) % 65521 + (s1.2 + s2.2 + 65521 - rem)) % 65521 = (adlerRun (1, 0) (a ++ b)).2 := by
  intro s1 s2 rem
  have a1 : s1.1 = _ := adlerRun_low a (1, 0) (by decide)
  have a2 : s1.2 = _ := adlerRun_high a (1, 0) (by decide)
  have b1 : s2.1 = _ := adlerRun_low b (1, 0) (by decide)
  have b2 : s2.2 = _ := adlerRun_high b (1, 0) (by decide)
  have c1 := adlerRun_low (a ++ b) (1, 0) (by decide)
  have c2 := adlerRun_high (a ++ b) (1, 0) (by decide)
  rw [List.map_append, List.sum_append] at c1
  rw [weighted_append, List.length_append] at c2
  simp only at a1 a2 b1 b2 c1 c2
  have hm : (rem * s1.1) % 65521 = (b.length * (1 + (a.map UInt8.toNat).sum)) % 65521 := by
    rw [a1]
    exact (Nat.mul_mod _ _ _).symm
  rw [Nat.mul_add, Nat.mul_one] at hm
  have hr : rem = b.length % 65521 := rfl
  rw [hm, c1, c2]
  generalize (a.map UInt8.toNat).sum = x at *
  generalize (b.map UInt8.toNat).sum = y at *
  generalize b.length * x = q at *
  omega

theorem halves_eq {a a' b b' : Nat} (h1 : a = a') (h2 : b = b') : a ||| (b <<< 16) = a' ||| (b' <<< 16) := by rw [h1, h2]

theorem adler32Combine_eq (a b : Bytes) :
    adler32Combine (adlerValue (adlerRun (1, 0) a)) (adlerValue (adlerRun (1, 0) b)) b.length =
      adlerValue (adlerRun (1, 0) (a ++ b)) := by
  obtain ⟨h1, h2⟩ := adlerRun_combine a b
  have l1 := adlerRun_lt (1, 0) ⟨by decide, by decide⟩ a
  have l2 := adlerRun_lt (1, 0) ⟨by decide, by decide⟩ b
  have l3 := adlerRun_lt (1, 0) ⟨by decide, by decide⟩ (a ++ b)
  obtain ⟨p1, p2⟩ := adler_split (adlerRun (1, 0) a).1 (adlerRun (1, 0) a).2 (by omega) (by omega)
  obtain ⟨q1, q2⟩ := adler_split (adlerRun (1, 0) b).1 (adlerRun (1, 0) b).2 (by omega) (by omega)
  rw [← adler_recombine (adlerRun (1, 0) (a ++ b)).1 (adlerRun (1, 0) (a ++ b)).2 (by omega)]
  simp only [adler32Combine, p1, p2, q1, q2, show adlerBase = 65521 from rfl, show (65521 <<< 1 : Nat) = 131042 from rfl]
  have hm : (b.length % 65521 * (adlerRun (1, 0) a).1) % 65521 < 65521 := Nat.mod_lt _ (by decide)
  generalize (b.length % 65521 * (adlerRun (1, 0) a).1) % 65521 = m at *
  have hr : b.length % 65521 < 65521 := Nat.mod_lt _ (by decide)
  generalize b.length % 65521 = rem at *
  refine halves_eq ?_ ?_
  · repeat (split <;> try omega)
  · repeat (split <;> try omega)

end Vcd
