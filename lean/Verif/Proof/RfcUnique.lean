import Verif.Proof.RfcFile

/-!
# Reading the grammar of delta files backwards
-/

namespace Vcd
open Spec

theorem Spec.NumCode.unique {b1 b2 r1 r2 : Bytes} {n1 n2 : Nat} (h1 : NumCode b1 n1) (h2 : NumCode b2 n2)
    (e : b1 ++ r1 = b2 ++ r2) : b1 = b2 ∧ n1 = n2 ∧ r1 = r2 := by
  have p1 := (parseSize_iff (r := r1)).2 ⟨b1, rfl, h1⟩
  have p2 := (parseSize_iff (r := r2)).2 ⟨b2, rfl, h2⟩
  rw [e, p2] at p1
  simp only [Parsed.ok.injEq] at p1
  obtain ⟨rfl, rfl⟩ := p1
  exact ⟨List.append_cancel_right e, rfl, rfl⟩

theorem numCode_byte {b : UInt8} (h : b.toNat < 128) : NumCode [b] b.toNat := by
  refine ⟨⟨[], b, rfl, by simp, by simp [continues]; omega⟩, ?_, by omega⟩
  simp [varintValue, digitsValue, digit]
  omega

theorem numCode_byte' {b : UInt8} {n : Nat} (h : b.toNat = n) (hn : n < 128) : NumCode [b] n :=
  h ▸ numCode_byte (by omega)

theorem Spec.NumCode.byte {bs r r' : Bytes} {n : Nat} {b : UInt8} (h : NumCode bs n) (hb : b.toNat < 128)
    (e : bs ++ r = b :: r') : bs = [b] ∧ n = b.toNat ∧ r = r' := h.unique (numCode_byte hb) e

theorem default_table_size : defaultTable.toBytes.length = 1536 := by decide +kernel

theorem exec_copy (u : Bytes) (a n : Nat) : execOps u [.copy a n] = extend u a n := rfl

/-- A window without a source segment, with one-byte length fields. -/
theorem Spec.WindowCode.small {c : Coding} {ext : Bool} {tol : Tolerance} {s : Settings} {dict prev w T r rest : Bytes}
    {d t x a b e : UInt8} (h : WindowCode c ext tol s dict prev w T) (hw : w ++ r = 0 :: d :: t :: x :: a :: b :: e :: rest)
    (hd : d.toNat < 128) (ht : t.toNat < 128) (ha : a.toNat < 128) (hb : b.toNat < 128) (he : e.toNat < 128) :
    T.length = t.toNat ∧ ∃ data inst addr items ops surplus, rest = data ++ inst ++ addr ++ r ∧
      data.length = a.toNat ∧ inst.length + surplus = b.toNat ∧ addr.length = e.toNat ∧
      (surplus = 0 ∨ (tol.excess = true ∧ ext = true ∧ data = [] ∧ addr = [])) ∧
      Program c tol [] 0 items ops ∧ execOps [] ops = T ∧ SectionCode ext items data inst addr := by
  cases h with
  | @mk ind di seg src dl tlen dlen ilen alen cks data inst addr _ items ops surplus source program tight exec
      windowLimit fileLimit sections noSurplus targetLength deltaIndicator dataLength instLength addrLength checksum
      deltaLength =>
    simp only [List.append_assoc, List.cons_append, List.nil_append, List.cons.injEq] at hw
    obtain ⟨rfl, hw⟩ := hw
    have hsrc : seg = [] ∧ src = [] := by
      generalize hi : (0 : UInt8) = ind at source
      cases source with
      | none h => exact ⟨rfl, rfl⟩
      | dict h => subst hi; exact absurd h (by decide)
      | target h => subst hi; exact absurd h (by decide)
    obtain ⟨rfl, rfl⟩ := hsrc
    have hcks : cks = [] := by
      unfold ChecksumCode at checksum
      rw [if_neg (by simp)] at checksum
      exact checksum
    subst hcks
    rw [List.nil_append] at hw
    obtain ⟨rfl, _, w1⟩ := deltaLength.byte hd hw
    obtain ⟨rfl, hT, w2⟩ := targetLength.byte ht w1
    simp only [List.cons.injEq] at w2
    obtain ⟨rfl, w3⟩ := w2
    obtain ⟨rfl, h1, w4⟩ := dataLength.byte ha w3
    obtain ⟨rfl, h2, w5⟩ := instLength.byte hb w4
    obtain ⟨rfl, h3, w6⟩ := addrLength.byte he w5
    refine ⟨hT, data, inst, addr, items, ops, surplus, ?_, h1, h2, h3, noSurplus, program, ?_, sections⟩
    · rw [← w6]; simp
    · simpa using exec

/-- A file with a plain header. -/
theorem Spec.FileCode.windows {tol : Tolerance} {s : Settings} {dict T r : Bytes} {v hi : UInt8}
    (h : FileCode tol s dict (0xD6 :: 0xC3 :: 0xC4 :: v :: hi :: r) T) (hp : hi &&& 3 = 0) :
    Windows defaultCoding (v == 0x53) tol s dict [] r T := by
  generalize hf : (0xD6 :: 0xC3 :: 0xC4 :: v :: hi :: r : Bytes) = f at h
  cases h with
  | @mk hdr ws T ext c _ hH hw =>
    cases hH with
    | plain hv hhi =>
      simp only [List.cons_append, List.nil_append, List.cons.injEq, true_and] at hf
      obtain ⟨rfl, rfl, rfl⟩ := hf
      exact hw
    | rfc _ _ hhi =>
      simp only [List.cons_append, List.nil_append, List.append_assoc, List.cons.injEq, true_and] at hf
      obtain ⟨rfl, rfl, _⟩ := hf
      rw [hp] at hhi
      exact absurd hhi (by decide)
    | library _ _ hhi =>
      simp only [List.cons_append, List.nil_append, List.append_assoc, List.cons.injEq, true_and] at hf
      obtain ⟨rfl, rfl, _⟩ := hf
      rw [hp] at hhi
      exact absurd hhi (by decide)
  | empty => simp at hf

/-- The first window of a sequence. -/
theorem Spec.Windows.first {c : Coding} {ext : Bool} {tol : Tolerance} {s : Settings} {dict prev ws T : Bytes}
    (h : Windows c ext tol s dict prev ws T) (hne : ws ≠ []) :
    ∃ w r T1 T2, ws = w ++ r ∧ T = T1 ++ T2 ∧ WindowCode c ext tol s dict prev w T1 ∧
      Windows c ext tol s dict (prev ++ T1) r T2 := by
  cases h with
  | nil => exact absurd rfl hne
  | @cons _ w T1 ws Ts h1 h2 => exact ⟨w, ws, T1, Ts, rfl, rfl, h1, h2⟩

theorem Spec.IsVarint.unique {b1 b2 r1 r2 : Bytes} (h1 : IsVarint b1) (h2 : IsVarint b2) (e : b1 ++ r1 = b2 ++ r2) :
    b1 = b2 ∧ r1 = r2 := by
  obtain ⟨f1, l1, rfl, g1, k1⟩ := h1
  obtain ⟨f2, l2, rfl, g2, k2⟩ := h2
  induction f1 generalizing f2 with
  | nil =>
    cases f2 with
    | nil => simpa using e
    | cons a f2 =>
      simp only [List.nil_append, List.cons_append, List.cons.injEq] at e
      rw [e.1] at k1
      exact absurd (g2 a (by simp)) k1
  | cons a f1 ih =>
    cases f2 with
    | nil =>
      simp only [List.nil_append, List.cons_append, List.cons.injEq] at e
      rw [← e.1] at k2
      exact absurd (g1 a (by simp)) k2
    | cons b f2 =>
      simp only [List.cons_append, List.cons.injEq] at e
      obtain ⟨h3, h4⟩ := ih (fun x hx => g1 x (by simp [hx])) f2 e.2 (fun x hx => g2 x (by simp [hx]))
      exact ⟨by simp only [List.cons_append, List.cons.injEq]; exact ⟨e.1, h3⟩, h4⟩

theorem Spec.Windows.parts {c : Coding} {ext : Bool} {tol : Tolerance} {s : Settings} {dict prev ws T : Bytes}
    (h : Windows c ext tol s dict prev ws T) :
    ∃ parts : List (Bytes × Bytes), ws = parts.flatMap Prod.fst ∧ T = targets parts ∧
      ∀ a w Tw b, parts = a ++ (w, Tw) :: b → WindowCode c ext tol s dict (prev ++ targets a) w Tw := by
  induction h with
  | nil => exact ⟨[], rfl, rfl, by simp⟩
  | @cons prev w T ws Ts h1 h2 ih =>
    obtain ⟨parts, e1, e2, e3⟩ := ih
    refine ⟨(w, T) :: parts, by simp [e1], by simp [targets, e2], ?_⟩
    intro a w' T' b hab
    cases a with
    | nil =>
      simp only [List.nil_append, List.cons.injEq, Prod.mk.injEq] at hab
      obtain ⟨⟨rfl, rfl⟩, rfl⟩ := hab
      simpa [targets] using h1
    | cons x a =>
      simp only [List.cons_append, List.cons.injEq] at hab
      obtain ⟨rfl, hab⟩ := hab
      have := e3 a w' T' b hab
      simpa [targets] using this

/-- Any reading of a window finds its header fields. -/
theorem Spec.WindowCode.reading {c : Coding} {ext : Bool} {tol : Tolerance} {s : Settings} {dict prev w T : Bytes}
    (h : WindowCode c ext tol s dict prev w T) (R : Reading w) :
    NumCode R.tlen T.length ∧ (R.ind &&& 3 = 0 ∨ R.ind &&& 3 = 1 ∨ (R.ind &&& 3 = 2 ∧ s.allowTarget = true)) ∧
    (ext = true → R.ind &&& 4 ≠ 0 → IsVarint R.cks → varintValue R.cks = adlerOf T) := by
  obtain ⟨ind', seg', dl', tlen', di', dlen', ilen', alen', cks', body', hb, hns, hsr, q1, q2, q3, q4, q5⟩ := R
  simp only
  cases h with
  | @mk ind di seg src dl tlen dlen ilen alen cks data inst addr _ items ops surplus source program tight exec
      windowLimit fileLimit sections noSurplus targetLength deltaIndicator dataLength instLength addrLength checksum
      deltaLength =>
    simp only [List.append_assoc, List.cons_append, List.nil_append, List.cons.injEq] at hb
    obtain ⟨rfl, hb⟩ := hb
    have hseg : seg = seg' ∧ dl ++ (tlen ++ di :: (dlen ++ (ilen ++ (alen ++ (cks ++ (data ++ (inst ++ addr))))))) =
        dl' ++ (tlen' ++ di' :: (dlen' ++ (ilen' ++ (alen' ++ (cks' ++ body'))))) := by
      cases source with
      | none h =>
        have := hns h
        subst this
        exact ⟨rfl, by simpa using hb⟩
      | @dict lb pb len pos h h1 h2 h3 =>
        obtain ⟨lb', pb', rfl, k1, k2⟩ := hsr (by rw [h]; decide)
        rw [List.append_assoc, List.append_assoc] at hb
        obtain ⟨rfl, hb1⟩ := h1.1.unique k1 hb
        obtain ⟨rfl, hb2⟩ := h2.1.unique k2 hb1
        exact ⟨rfl, hb2⟩
      | @target lb pb len pos h ha h1 h2 h3 =>
        obtain ⟨lb', pb', rfl, k1, k2⟩ := hsr (by rw [h]; decide)
        rw [List.append_assoc, List.append_assoc] at hb
        obtain ⟨rfl, hb1⟩ := h1.1.unique k1 hb
        obtain ⟨rfl, hb2⟩ := h2.1.unique k2 hb1
        exact ⟨rfl, hb2⟩
    obtain ⟨rfl, e0⟩ := hseg
    obtain ⟨rfl, e1⟩ := deltaLength.1.unique q1 e0
    obtain ⟨rfl, e2⟩ := targetLength.1.unique q2 e1
    simp only [List.cons.injEq] at e2
    obtain ⟨rfl, e2⟩ := e2
    obtain ⟨rfl, e3⟩ := dataLength.1.unique q3 e2
    obtain ⟨rfl, e4⟩ := instLength.1.unique q4 e3
    obtain ⟨rfl, e5⟩ := addrLength.1.unique q5 e4
    refine ⟨targetLength, ?_, ?_⟩
    · cases source with
      | none h => exact Or.inl h
      | dict h => exact Or.inr (Or.inl h)
      | target h ha => exact Or.inr (Or.inr ⟨h, ha⟩)
    · intro hx h4 q6
      unfold ChecksumCode at checksum
      rw [if_pos (by simp [hx, h4])] at checksum
      obtain ⟨rfl, _⟩ := checksum.1.unique q6 e5
      exact checksum.2

end Vcd
