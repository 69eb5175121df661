import Verif.Spec.Common
import Verif.Proof.ReferenceExtended

/-! # The other decoders accept exactly the common deltas -/

namespace Vcd
open Spec Spec.Reference

namespace Common

theorem windows {ext : Bool} {s : Settings} {dict prev ws T : Bytes} (h : CommonWindows ext s dict prev ws T) :
    Windows defaultCoding ext strict s dict prev ws T := by
  induction h with
  | nil => exact .nil
  | cons h1 _ _ ih => exact .cons h1 ih

theorem plain {s : Settings} {dict prev w T : Bytes} (h : WindowCode defaultCoding false strict s dict prev w T) (hd : DefinedBits false w) :
    PlainWindow w := by
  obtain ⟨R, h1, h2⟩ := hd
  refine ⟨R, ?_, h2⟩
  have hsrc : R.ind &&& 3 ≠ 3 := by
    cases h with
    | @mk ind _ seg _ _ _ _ _ _ _ _ _ _ _ _ _ _ source =>
      have e : R.ind = ind := by
        have := congrArg List.head? R.bytes
        simp only [List.cons_append, List.append_assoc, List.head?_cons, Option.some.injEq] at this
        exact this.symm
      rw [e]
      cases source with
      | none e' => rw [e']; decide
      | dict e' => rw [e']; decide
      | target e' => rw [e']; decide
  rw [if_neg (by decide)] at h1
  have key : ∀ b : UInt8, b &&& 0xFC = 0 → b &&& 3 ≠ 3 → b.toNat ≤ 2 := by apply forall_byte; decide +kernel
  exact key _ h1 hsrc

theorem plain_extended {w : Bytes} (hd : DefinedBits true w) : ReferenceExtended.PlainWindow w := by
  obtain ⟨R, h1, h2⟩ := hd
  refine ⟨R, ?_, h2⟩
  rw [if_pos rfl] at h1
  have key : ∀ b : UInt8, b &&& 0xF8 = 0 → b.toNat < 8 := by apply forall_byte; decide +kernel
  exact key _ h1

theorem defined {w : Bytes} (h : PlainWindow w) : DefinedBits false w := by
  obtain ⟨R, h1, h2⟩ := h
  refine ⟨R, ?_, h2⟩
  rw [if_neg (by decide)]
  have key : ∀ b : UInt8, b.toNat ≤ 2 → b &&& 0xFC = 0 := by apply forall_byte; decide +kernel
  exact key _ h1

theorem defined_extended {w : Bytes} (h : ReferenceExtended.PlainWindow w) : DefinedBits true w := by
  obtain ⟨R, h1, h2⟩ := h
  refine ⟨R, ?_, h2⟩
  rw [if_pos rfl]
  have key : ∀ b : UInt8, b.toNat < 8 → b &&& 0xF8 = 0 := by apply forall_byte; decide +kernel
  exact key _ h1

theorem decoded {s : Settings} {dict prev ws T : Bytes} (h : CommonWindows false s dict prev ws T) :
    ∀ fuel, ws.length ≤ fuel → Reference.windows true dict fuel prev ws = some (prev ++ T) := by
  generalize hx : false = ext at h
  induction h with
  | nil => intro fuel _; cases fuel <;> simp [Reference.windows]
  | @cons prev w T ws Ts h1 h2 _ ih =>
    subst hx
    intro fuel hf
    have hne := WindowCode.ne_nil h1
    have hpos : 0 < w.length := List.length_pos_iff.2 hne
    simp only [List.length_append] at hf
    cases fuel with
    | zero => omega
    | succ fuel =>
      rw [Reference.windows, if_neg (by simp [hne])]
      simp only [Option.bind_eq_bind]
      rw [(reference_window h1 ws).1 ⟨rfl, fun _ => rfl, plain h1 h2⟩]
      simp only [Option.bind_some]
      rw [ih fuel (by omega), List.append_assoc]

theorem decoded_extended {s : Settings} {dict prev ws T : Bytes} (h : CommonWindows true s dict prev ws T) :
    ∀ fuel, ws.length ≤ fuel → Spec.ReferenceExtended.windows true dict fuel prev ws = some (prev ++ T) := by
  generalize hx : true = ext at h
  induction h with
  | nil => intro fuel _; cases fuel <;> simp [Spec.ReferenceExtended.windows]
  | @cons prev w T ws Ts h1 h2 _ ih =>
    subst hx
    intro fuel hf
    have hne := WindowCode.ne_nil h1
    have hpos : 0 < w.length := List.length_pos_iff.2 hne
    simp only [List.length_append] at hf
    cases fuel with
    | zero => omega
    | succ fuel =>
      rw [Spec.ReferenceExtended.windows, if_neg (by simp [hne])]
      simp only [Option.bind_eq_bind]
      rw [(ReferenceExtended.window_of_code h1 ws).1 rfl rfl rfl (plain_extended h2)]
      simp only [Option.bind_some]
      rw [ih fuel (by omega), List.append_assoc]

theorem of_decoded {S : Settings} {dict : Bytes} (hS : S.allowTarget = true) {fuel : Nat} : ∀ {prev s R : Bytes}, R.length ≤ S.maxWindow →
    R.length ≤ S.maxFile → s.length ≤ 2147483647 → dict.length + R.length ≤ 2147483647 → Reference.windows true dict fuel prev s = some R →
    ∃ T, R = prev ++ T ∧ CommonWindows false S dict prev s T := by
  induction fuel with
  | zero =>
    intro prev s R _ _ _ _ h
    rw [Reference.windows] at h
    by_cases hi : s = []
    · rw [if_pos hi] at h
      cases h
      subst hi
      exact ⟨[], by simp, .nil⟩
    · rw [if_neg hi] at h; cases h
  | succ fuel ih =>
    intro prev s R hw hf hs hb h
    rw [Reference.windows] at h
    by_cases hi : s = []
    · rw [if_pos hi] at h
      cases h
      subst hi
      exact ⟨[], by simp, .nil⟩
    · rw [if_neg hi] at h
      simp only [Option.bind_eq_bind, Option.bind_eq_some_iff, Prod.exists] at h
      obtain ⟨t, s', h1, h2⟩ := h
      have hs' : s'.length ≤ s.length := window_rest h1
      obtain ⟨T, e, k⟩ := ih hw hf (by omega) hb h2
      have hl : R.length = prev.length + t.length + T.length := by rw [e]; simp; omega
      obtain ⟨w, rfl, hwc, hp⟩ := window_some (tol := strict) (S := S) (.inr rfl) hS (by omega) (by omega) hs (by omega) h1
      exact ⟨t ++ T, by rw [e]; simp, .cons hwc (defined hp) k⟩

theorem of_decoded_extended {S : Settings} {dict : Bytes} (hS : S.allowTarget = true) {fuel : Nat} : ∀ {prev s R : Bytes}, R.length ≤ S.maxWindow →
    R.length ≤ S.maxFile → s.length ≤ 2147483647 → dict.length + R.length ≤ 2147483647 →
    Spec.ReferenceExtended.windows true dict fuel prev s = some R → ∃ T, R = prev ++ T ∧ CommonWindows true S dict prev s T := by
  induction fuel with
  | zero =>
    intro prev s R _ _ _ _ h
    rw [Spec.ReferenceExtended.windows] at h
    by_cases hi : s = []
    · rw [if_pos hi] at h
      cases h
      subst hi
      exact ⟨[], by simp, .nil⟩
    · rw [if_neg hi] at h; cases h
  | succ fuel ih =>
    intro prev s R hw hf hs hb h
    rw [Spec.ReferenceExtended.windows] at h
    by_cases hi : s = []
    · rw [if_pos hi] at h
      cases h
      subst hi
      exact ⟨[], by simp, .nil⟩
    · rw [if_neg hi] at h
      simp only [Option.bind_eq_bind, Option.bind_eq_some_iff, Prod.exists] at h
      obtain ⟨t, s', h1, h2⟩ := h
      have hs' : s'.length ≤ s.length := ReferenceExtended.window_rest h1
      obtain ⟨T, e, k⟩ := ih hw hf (by omega) hb h2
      have hl : R.length = prev.length + t.length + T.length := by rw [e]; simp; omega
      obtain ⟨w, rfl, hwc, hp⟩ := ReferenceExtended.window_some (tol := strict) (S := S) (.inr rfl) hS (by omega) (by omega) hs (by omega) h1
      exact ⟨t ++ T, by rw [e]; simp, .cons hwc (defined_extended hp) k⟩

/-- The other decoder decodes every common delta. -/
theorem file {s : Settings} {dict delta T : Bytes} (h : CommonFile s dict delta T) :
    FileCode strict s dict delta T ∧ Spec.ReferenceExtended.decode true dict delta = some T := by
  cases h with
  | standard h =>
    refine ⟨.mk (.plain (v := 0) (hi := 0) (.inl rfl) rfl) (windows h), ?_⟩
    have := decoded h _ (Nat.le_refl _)
    rw [List.nil_append] at this
    exact this
  | extended h =>
    refine ⟨.mk (.plain (v := 0x53) (hi := 0) (.inr rfl) rfl) (windows h), ?_⟩
    have := decoded_extended h _ (Nat.le_refl _)
    rw [List.nil_append] at this
    exact this

/-- And no others. -/
theorem of_file {S : Settings} {dict delta T : Bytes} (hS : S.allowTarget = true) (hw : T.length ≤ S.maxWindow) (hf : T.length ≤ S.maxFile)
    (hs : delta.length ≤ 2147483647) (hb : dict.length + T.length ≤ 2147483647) (h : Spec.ReferenceExtended.decode true dict delta = some T) :
    CommonFile S dict delta T := by
  unfold Spec.ReferenceExtended.decode at h
  split at h
  · rename_i s
    simp only [List.length_cons] at hs
    obtain ⟨T', e, k⟩ := of_decoded_extended hS hw hf (by omega) hb h
    simp only [List.nil_append] at e
    subst e
    exact .extended k
  · unfold Reference.decode at h
    split at h
    · rename_i s _
      simp only [List.length_cons] at hs
      obtain ⟨T', e, k⟩ := of_decoded hS hw hf (by omega) hb h
      simp only [List.nil_append] at e
      subst e
      exact .standard k
    · cases h

end Common
end Vcd
