import Verif.Proof.SelfDelimiting
import Verif.Proof.Nesting
import Verif.Spec.Dictionary
import Verif.Props.Adler

/-!
# Windows read with another dictionary
-/

namespace Vcd
open Spec

theorem strict_le_library : Tolerance.Le strict library := ⟨by decide, by decide, by decide, by decide, by decide, Or.inl rfl⟩

/-! ### Strings that differ in few bytes -/

theorem wrongBytes_append {a b a' b' : Bytes} (h : a.length = b.length) : wrongBytes (a ++ a') (b ++ b') = wrongBytes a b + wrongBytes a' b' := by
  simp only [wrongBytes]
  rw [List.zip_append h, List.countP_append]

theorem wrongBytes_cons (x y : UInt8) (a b : Bytes) : wrongBytes (x :: a) (y :: b) = (if x = y then 0 else 1) + wrongBytes a b := by
  simp only [wrongBytes, List.zip_cons_cons, List.countP_cons]
  by_cases h : x = y <;> simp [h] <;> omega

theorem wrongBytes_zero {a b : Bytes} (h : a.length = b.length) (h0 : wrongBytes a b = 0) : a = b := by
  induction a generalizing b with
  | nil => cases b with
    | nil => rfl
    | cons => simp at h
  | cons x a ih =>
    cases b with
    | nil => simp at h
    | cons y b =>
      rw [wrongBytes_cons] at h0
      by_cases hxy : x = y
      · rw [hxy, ih (by simpa using h) (by omega)]
      · rw [if_neg hxy] at h0; omega

theorem wrongBytes_one {a b : Bytes} (h : a.length = b.length) {n : Nat} (h0 : wrongBytes a b = n + 1) :
    ∃ front x y a' b', x ≠ y ∧ a = front ++ x :: a' ∧ b = front ++ y :: b' ∧ a'.length = b'.length ∧ wrongBytes a' b' = n := by
  induction a generalizing b with
  | nil => cases b with
    | nil => simp [wrongBytes] at h0
    | cons => simp at h
  | cons x a ih =>
    cases b with
    | nil => simp at h
    | cons y b =>
      rw [wrongBytes_cons] at h0
      by_cases hxy : x = y
      · obtain ⟨front, u, v, a', b', k1, k2, k3, k4, k5⟩ := ih (b := b) (by simpa using h) (by rw [if_pos hxy] at h0; omega)
        exact ⟨x :: front, u, v, a', b', k1, by rw [k2]; rfl, by rw [k3, hxy]; rfl, k4, k5⟩
      · exact ⟨[], x, y, a, b, hxy, rfl, rfl, by simpa using h, by rw [if_neg hxy] at h0; omega⟩

/-- Different strings with the same checksum differ in at least two bytes, and in at least three if they are short. -/
theorem adler_wrongBytes {a b : Bytes} (h : a.length = b.length) (hlen : a.length < 4294967296) (he : adlerOf a = adlerOf b) (hne : a ≠ b) :
    2 ≤ wrongBytes a b ∧ (a.length ≤ 65521 → 3 ≤ wrongBytes a b) := by
  rw [← computeAdler32_eq a hlen, ← computeAdler32_eq b (by omega)] at he
  have h1 : wrongBytes a b ≠ 0 := fun h0 => hne (wrongBytes_zero h h0)
  have h2 : wrongBytes a b ≠ 1 := by
    intro h0
    obtain ⟨front, x, y, a', b', k1, rfl, rfl, k4, k5⟩ := wrongBytes_one h h0
    obtain rfl := wrongBytes_zero k4 k5
    exact Props.adler_detects_one_byte front a' x y k1 hlen he
  refine ⟨by omega, fun hl => ?_⟩
  have h3 : wrongBytes a b ≠ 2 := by
    intro h0
    obtain ⟨front, x, x', a', b', k1, rfl, rfl, k4, k5⟩ := wrongBytes_one h h0
    obtain ⟨mid, y, y', a'', b'', j1, rfl, rfl, j4, j5⟩ := wrongBytes_one k4 k5
    obtain rfl := wrongBytes_zero j4 j5
    refine Props.adler_detects_two_bytes front mid a'' x y x' y' k1 ?_ hlen he
    simp only [List.length_append, List.length_cons] at hl
    omega
  omega

/-- The same for strings that are cut into parts. -/
theorem adler_wrongBytes_parts {parts chunks : List Bytes} (hl : parts.map List.length = chunks.map List.length)
    (ha : parts.map adlerOf = chunks.map adlerOf) (hlen : ∀ c ∈ chunks, c.length < 4294967296) (hne : parts.flatten ≠ chunks.flatten) :
    2 ≤ wrongBytes parts.flatten chunks.flatten ∧
      ((∀ c ∈ chunks, c.length ≤ 65521) → 3 ≤ wrongBytes parts.flatten chunks.flatten) := by
  induction parts generalizing chunks with
  | nil =>
    cases chunks with
    | nil => exact absurd rfl hne
    | cons => simp at hl
  | cons p parts ih =>
    cases chunks with
    | nil => simp at hl
    | cons c chunks =>
      simp only [List.map_cons, List.cons.injEq] at hl ha
      simp only [List.flatten_cons, List.mem_cons, forall_eq_or_imp] at hlen hne ⊢
      rw [wrongBytes_append hl.1]
      by_cases hpc : p = c
      · subst hpc
        have := ih hl.2 ha.2 hlen.2 (fun h => hne (by rw [h]))
        refine ⟨by omega, fun h => ?_⟩
        have := this.2 h.2
        omega
      · have := adler_wrongBytes hl.1 (by rw [hl.1]; exact hlen.1) ha.1 hpc
        refine ⟨by omega, fun h => ?_⟩
        have := this.2 (by rw [hl.1]; exact h.1)
        omega

/-! ### Windows -/

/-- In the standard format a sequence of windows is one relative to any dictionary that is long enough. -/
theorem Spec.Windows.other {c : Coding} {tol : Tolerance} {s : Settings} {dict prev ws T : Bytes}
    (h : Windows c false tol s dict prev ws T) {dict' prev' : Bytes} (hd : dict.length ≤ dict'.length)
    (hp : prev.length = prev'.length) : ∃ T', Windows c false tol s dict' prev' ws T' ∧ T'.length = T.length := by
  induction h generalizing prev' with
  | nil => exact ⟨[], .nil, rfl⟩
  | cons h1 _ ih =>
    obtain ⟨T1, k1, _, k3⟩ := h1.other hd hp
    obtain ⟨T2, j1, j2⟩ := ih (prev' := prev' ++ T1) (by simp only [List.length_append]; omega)
    exact ⟨T1 ++ T2, .cons (k3 (Or.inl (Or.inl rfl))) j1, by simp only [List.length_append]; omega⟩

theorem SourceIs.fits {d : Nat} {w : Bytes} (hs : SourceIs d w) {c : Coding} {ext : Bool} {tol : Tolerance} {s : Settings}
    {dict prev T : Bytes} (h : WindowCode c ext tol s dict prev w T) : d ≤ dict.length := by
  obtain ⟨ind, lb, pb, rest, e, h1, h2, h3⟩ := hs
  cases h with
  | @mk ind' di seg src dl tlen dlen ilen alen cks data inst addr _ items ops surplus source =>
    simp only [List.append_assoc, List.cons_append, List.nil_append, List.cons.injEq] at e
    obtain ⟨rfl, e⟩ := e
    cases source with
    | none k => rw [k] at h1; exact absurd h1 (by decide)
    | target k => rw [k] at h1; exact absurd h1 (by decide)
    | @dict lb' pb' len pos k n1 n2 n3 =>
      rw [List.append_assoc] at e
      obtain ⟨rfl, rfl, _⟩ := n1.unique h2 e
      omega

/-- The windows of some chunks, read relative to another dictionary. -/
theorem windows_read {ext checksum : Bool} (hck : checksum = true → ext = true) {s s0 : Settings} {dict dict' : Bytes} {window : Bytes → Bytes} {il : Bool}
    (hempty : window [] = []) {chunks : List Bytes}
    (hwin : ∀ data ∈ chunks, data ≠ [] → Layout il checksum data (window data) ∧
      WindowCode defaultCoding ext strict s0 dict [] (window data) data)
    {prev T : Bytes} (h : Windows defaultCoding ext library s dict' prev (chunks.flatMap window) T) :
    ∃ parts : List Bytes, parts.flatten = T ∧ parts.map List.length = chunks.map List.length ∧
      (checksum = true → parts.map adlerOf = chunks.map adlerOf) := by
  induction chunks generalizing prev T with
  | nil =>
    refine ⟨[], ?_, rfl, fun _ => rfl⟩
    cases hw : T with
    | nil => rfl
    | cons x T' =>
      exfalso
      subst hw
      simp only [List.flatMap_nil] at h
      generalize hx : ([] : Bytes) = ws at h
      generalize hy : x :: T' = T at h
      cases h with
      | nil => cases hy
      | cons h1 =>
        cases h1 with
        | mk => simp at hx
  | cons data chunks ih =>
    have ih := fun {prev T} => ih (fun data hm => hwin data (List.mem_cons_of_mem _ hm)) (prev := prev) (T := T)
    rw [List.flatMap_cons] at h
    by_cases hne : data = []
    · subst hne
      rw [hempty, List.nil_append] at h
      obtain ⟨parts, k1, k2, k3⟩ := ih h
      exact ⟨[] :: parts, by simpa using k1, by simp [k2], fun hc => by simp [k3 hc]⟩
    · obtain ⟨w1, w2⟩ := hwin data (List.mem_cons_self ..) hne
      have hwne : window data ≠ [] := by
        intro h0
        obtain ⟨R, _⟩ := w1
        have := congrArg List.length R.bytes
        rw [congrArg List.length h0] at this
        simp at this
      obtain ⟨w, r, T1, T2, e, rfl, k1, k2⟩ := h.first (by simp [hwne])
      obtain ⟨rfl, rfl, hlen, _⟩ := (w2.mono strict_le_library).unique rfl k1 e
      obtain ⟨parts, j1, j2, j3⟩ := ih k2
      refine ⟨T1 :: parts, by simp [j1], by simp [j2, hlen], fun hc => ?_⟩
      obtain ⟨R, _, r2, r3⟩ := w1
      rw [hc] at r3
      have := (k1.reading R).2.2 (hck hc) (by rw [r2.1, if_pos hc]; decide) r3.1
      simp only [List.map_cons, j3 hc, List.cons.injEq, and_true]
      rw [← this]
      exact r3.2

/-- Without checksums, the windows of some chunks can be read relative to any dictionary that is long enough. -/
theorem windows_reread {ext : Bool} {s : Settings} {dict dict' : Bytes} {window : Bytes → Bytes} {il : Bool}
    (hd : dict.length ≤ dict'.length) (hempty : window [] = []) {chunks : List Bytes}
    (hwin : ∀ data ∈ chunks, data ≠ [] → Layout il false data (window data) ∧
      ∀ prev, prev.length + data.length ≤ s.maxFile → WindowCode defaultCoding ext strict s dict prev (window data) data)
    {prev : Bytes} (hfile : prev.length + chunks.flatten.length ≤ s.maxFile) :
    ∃ T, Windows defaultCoding ext strict s dict' prev (chunks.flatMap window) T ∧ T.length = chunks.flatten.length := by
  induction chunks generalizing prev with
  | nil => exact ⟨[], .nil, rfl⟩
  | cons data chunks ih =>
    have ih := fun {prev} => ih (fun data hm => hwin data (List.mem_cons_of_mem _ hm)) (prev := prev)
    simp only [List.flatten_cons, List.length_append] at hfile
    rw [List.flatMap_cons]
    by_cases hne : data = []
    · subst hne
      rw [hempty, List.nil_append]
      obtain ⟨T, k1, k2⟩ := ih (prev := prev) (by simpa using hfile)
      exact ⟨T, k1, by simpa using k2⟩
    · obtain ⟨⟨R, _, r2, _⟩, w2⟩ := hwin data (List.mem_cons_self ..) hne
      obtain ⟨T1, k1, _, k3⟩ := (w2 prev (by omega)).other hd (prev' := prev) rfl
      have h0 : R.ind &&& 4 = 0 := by rw [r2.1]; decide
      obtain ⟨T2, j1, j2⟩ := ih (prev := prev ++ T1) (by simp only [List.length_append]; omega)
      exact ⟨T1 ++ T2, .cons (k3 (Or.inl (Or.inr ⟨R, h0⟩))) j1, by simp only [List.flatten_cons, List.length_append]; omega⟩

end Vcd
