import Verif.Props.Rfc
import Verif.Props.Encoder

/-!
# C60: the windows of a delta file stand on their own

Unless windows may copy from earlier target data, deltas with the same header can be joined, and a delta
can be split, between windows. `hdr` is any delta that is accepted and stands for the empty target: in
the simplest case the five bytes of the standard header.
-/

namespace Vcd
open Spec

/-- Without windows on earlier target data, a window does not depend on what precedes it. -/
theorem Spec.WindowCode.move {c : Coding} {ext : Bool} {tol : Tolerance} {s : Settings} {dict prev prev' w T : Bytes}
    (h : WindowCode c ext tol s dict prev w T) (hs : s.allowTarget = false) (hl : prev'.length + T.length ≤ s.maxFile) :
    WindowCode c ext tol s dict prev' w T := by
  cases h with
  | mk source program tight exec windowLimit fileLimit sections noSurplus targetLength deltaIndicator dataLength
      instLength addrLength checksum deltaLength copies caches =>
    refine .mk ?_ program tight exec windowLimit hl sections noSurplus targetLength deltaIndicator dataLength
      instLength addrLength checksum deltaLength copies caches
    cases source with
    | none h => exact .none h
    | dict h1 h2 h3 h4 => exact .dict h1 h2 h3 h4
    | target h1 h2 => rw [hs] at h2; exact absurd h2 (by decide)

theorem Spec.Windows.move {c : Coding} {ext : Bool} {tol : Tolerance} {s : Settings} {dict prev prev' ws T : Bytes}
    (h : Windows c ext tol s dict prev ws T) (hs : s.allowTarget = false) (hl : prev'.length + T.length ≤ s.maxFile) :
    Windows c ext tol s dict prev' ws T := by
  induction h generalizing prev' with
  | nil => exact .nil
  | cons h _ ih =>
    simp only [List.length_append] at hl
    exact .cons (h.move hs (by omega)) (ih (by simp only [List.length_append]; omega))

theorem Spec.Windows.join {c : Coding} {ext : Bool} {tol : Tolerance} {s : Settings} {dict prev ws1 ws2 T1 T2 : Bytes}
    (h1 : Windows c ext tol s dict prev ws1 T1) (h2 : Windows c ext tol s dict (prev ++ T1) ws2 T2) :
    Windows c ext tol s dict prev (ws1 ++ ws2) (T1 ++ T2) := by
  induction h1 with
  | nil => simpa using h2
  | cons h _ ih =>
    rw [List.append_assoc, List.append_assoc]
    exact .cons h (ih (by simpa using h2))

/-- The target of windows is within the limit for files. -/
theorem Spec.Windows.le_file {c : Coding} {ext : Bool} {tol : Tolerance} {s : Settings} {dict prev ws T : Bytes}
    (h : Windows c ext tol s dict prev ws T) : T = [] ∨ prev.length + T.length ≤ s.maxFile := by
  induction h with
  | nil => exact .inl rfl
  | @cons prev w T ws Ts h _ ih =>
    have hl : prev.length + T.length ≤ s.maxFile := by cases h; assumption
    rcases ih with rfl | ih
    · right; simpa using hl
    · right; simp only [List.length_append] at ih ⊢; omega

/-- What can stand after `hdr`. -/
theorem after_header {s : Settings} {dict hdr : Bytes} (hne : hdr ≠ [])
    (hh : (configured s).decode dict (singles hdr) = some []) :
    ∃ ext c, (∀ a T, (configured s).decode dict (singles (hdr ++ a)) = some T ↔
        Windows c ext library s dict [] a T) ∧
      ∀ a b T T', (configured s).decode dict (singles (hdr ++ a)) = some T →
        (configured s).decode dict (singles (hdr ++ (a ++ b))) = some T' →
        ∃ T2, T' = T ++ T2 ∧ Windows c ext library s dict T b T2 := by
  obtain ⟨h, ext, c, ws, e1, e2, e3, e4⟩ := after_prefix (s := s) (d := configured s) (left := defaultTable)
    rfl rfl rfl rfl rfl (cs := singles hdr) (by rwa [singles_flatten]) hh
  rw [singles_flatten] at e1 e4
  refine ⟨ext, c, fun a T => ⟨fun h => ?_, fun hw => ?_⟩, ?_⟩
  · obtain ⟨T2, rfl, h2, _⟩ := e4 a T h
    simpa using h2
  · refine (Props.accepts_exactly_library s dict _ T).2 ?_
    have hw' : Windows c ext library s dict [] (ws ++ a) ([] ++ T) := e3.join hw
    rw [e1, List.append_assoc]
    exact .mk e2 hw'
  · intro a b T T' h1 h2
    obtain ⟨_, _, _, h3⟩ := e4 a T h1
    exact h3 b T' (by rwa [List.append_assoc])

namespace Props

/-- C60. Let windows on earlier target data be disallowed, `hdr` be a delta for the empty target, and let the
deltas of any list of `parts` be accepted, each with `hdr` before it. Then `hdr` followed by all the parts is accepted,
and stands for their targets one after the other, unless these exceed the limit for files. As it holds for every list,
parts can be put in another order, left out and repeated. -/
theorem deltas_can_be_joined (s : Settings) (hs : s.allowTarget = false) (dict hdr : Bytes) (hne : hdr ≠ [])
    (hh : (configured s).decode dict (hdr.map fun b => [b]) = some [])
    (parts : List (Bytes × Bytes))
    (hp : ∀ part ∈ parts, (configured s).decode dict ((hdr ++ part.1).map fun b => [b]) = some part.2)
    (hl : (targets parts).length ≤ s.maxFile) :
    (configured s).decode dict ((hdr ++ parts.flatMap Prod.fst).map fun b => [b]) = some (targets parts) := by
  obtain ⟨ext, c, hw, _⟩ := after_header hne hh
  refine (hw _ _).2 ?_
  suffices h : ∀ prev : Bytes, prev.length + (targets parts).length ≤ s.maxFile →
      Windows c ext library s dict prev (parts.flatMap Prod.fst) (targets parts) from h [] (by simpa using hl)
  clear hl
  induction parts with
  | nil => intro _ _; exact .nil
  | cons part parts ih =>
    intro prev hl
    simp only [targets, List.flatMap_cons, List.length_append] at hl ⊢
    refine ((((hw _ _).1 (hp part (List.mem_cons_self ..))).move hs (by omega))).join ?_
    exact ih (fun p hm => hp p (List.mem_cons_of_mem _ hm)) _ (by simp only [List.length_append, targets]; omega)

/-- C60. The same in every division into chunks, for a header without extensions and without a code table. -/
theorem standard_deltas_can_be_joined (s : Settings) (hs : s.allowTarget = false) (dict hdr : Bytes) (hne : hdr ≠ [])
    (hh : (configured s).decode dict (hdr.map fun b => [b]) = some [])
    (parts : List (Bytes × Bytes)) (cs : List Bytes) (hcs : cs.flatten = hdr ++ parts.flatMap Prod.fst)
    (hx : ¬ Extended cs.flatten) (hc : ¬ CustomTable cs.flatten)
    (hp : ∀ part ∈ parts, ∃ cs, cs.flatten = hdr ++ part.1 ∧ (configured s).decode dict cs = some part.2)
    (hl : (targets parts).length ≤ s.maxFile) :
    (configured s).decode dict cs = some (targets parts) := by
  refine (standard_accepts_exactly_library s dict _ cs hx hc).2 ?_
  refine (accepts_exactly_library s dict _ _).1 ?_
  rw [hcs]
  refine deltas_can_be_joined s hs dict hdr hne hh parts (fun part hm => ?_) hl
  obtain ⟨cs', h1, h2⟩ := hp part hm
  have := decode_singles (d := configured s) rfl h2
  rwa [h1] at this

/-- C60. A delta can be split after any of its complete prefixes: what follows the prefix is, with the header before
it, a delta for the rest of the target. -/
theorem deltas_can_be_split (s : Settings) (hs : s.allowTarget = false) (dict hdr a b T1 T : Bytes) (hne : hdr ≠ [])
    (hh : (configured s).decode dict (hdr.map fun b => [b]) = some [])
    (h1 : (configured s).decode dict ((hdr ++ a).map fun b => [b]) = some T1)
    (h : (configured s).decode dict ((hdr ++ (a ++ b)).map fun b => [b]) = some T) :
    ∃ T2, T = T1 ++ T2 ∧ (configured s).decode dict ((hdr ++ b).map fun b => [b]) = some T2 := by
  obtain ⟨ext, c, hw, h2⟩ := after_header hne hh
  obtain ⟨T2, rfl, h3⟩ := h2 a b T1 T h1 h
  have hl : ([] : Bytes).length + T2.length ≤ s.maxFile := by
    rcases h3.le_file with rfl | hb <;> simp
    omega
  exact ⟨T2, rfl, (hw b T2).2 (h3.move hs hl)⟩

/-- C60. Both in one: after a delta `hdr ++ a` for `T1`, the bytes `b` add `T2` to the target exactly if they are what
`hdr` can be followed by in a delta for `T2` alone. -/
theorem deltas_joined_iff (s : Settings) (hs : s.allowTarget = false) (dict hdr a b T1 T2 : Bytes) (hne : hdr ≠ [])
    (hh : (configured s).decode dict (hdr.map fun b => [b]) = some [])
    (h1 : (configured s).decode dict ((hdr ++ a).map fun b => [b]) = some T1)
    (hl : (T1 ++ T2).length ≤ s.maxFile) :
    (configured s).decode dict ((hdr ++ (a ++ b)).map fun b => [b]) = some (T1 ++ T2) ↔
      (configured s).decode dict ((hdr ++ b).map fun b => [b]) = some T2 := by
  constructor
  · intro h
    obtain ⟨T2', e, h2⟩ := deltas_can_be_split s hs dict hdr a b T1 _ hne hh h1 h
    rwa [← List.append_cancel_left e] at h2
  · intro h
    have := deltas_can_be_joined s hs dict hdr hne hh [(a, T1), (b, T2)]
      (by
        intro part hm
        rcases List.mem_cons.1 hm with rfl | hm
        · exact h1
        · rw [List.mem_singleton.1 hm]
          exact h) (by simpa [targets] using hl)
    simpa [targets] using this

/-- Instances: the standard header; a window that adds `abc`; a window that copies from the dictionary `xyz`; in any order. -/
def joinHeader : Bytes := [0xD6, 0xC3, 0xC4, 0, 0]
def joinAdd : Bytes := [0, 10, 3, 0, 3, 2, 0, 0x61, 0x62, 0x63, 1, 3]
def joinCopy : Bytes := [1, 3, 0, 8, 3, 0, 0, 2, 1, 19, 3, 0]

example : let s : Settings := { allowTarget := false }
    (configured s).decode [0x78, 0x79, 0x7A] (joinHeader.map fun b => [b]) = some [] ∧
    (∀ part ∈ [(joinAdd, [0x61, 0x62, 0x63]), (joinCopy, [0x78, 0x79, 0x7A]), (joinAdd, ([0x61, 0x62, 0x63] : Bytes))],
      (configured s).decode [0x78, 0x79, 0x7A] ((joinHeader ++ part.1).map fun b => [b]) = some part.2) ∧
    ¬ Extended (joinHeader ++ joinAdd ++ joinCopy) ∧ ¬ CustomTable (joinHeader ++ joinAdd ++ joinCopy) := by
  refine ⟨by decide +kernel, by decide +kernel, by unfold Extended; decide +kernel, ?_⟩
  rintro ⟨b, h1, h2⟩
  have : b = 0 := (Option.some.inj h1).symm
  exact h2 (by rw [this]; rfl)

/-- C60 is about files without windows on earlier target data: with them, what follows a complete prefix need not be
a delta of its own. -/
theorem target_window_not_alone :
    let last : Bytes := [2, 3, 0, 8, 3, 0, 0, 2, 1, 19, 3, 0]
    (configured {}).decode [] (joinHeader.map fun b => [b]) = some [] ∧
    (configured {}).decode [] ((joinHeader ++ joinAdd).map fun b => [b]) = some [0x61, 0x62, 0x63] ∧
    (configured {}).decode [] ((joinHeader ++ (joinAdd ++ last)).map fun b => [b]) =
      some [0x61, 0x62, 0x63, 0x61, 0x62, 0x63] ∧
    (configured {}).decode [] ((joinHeader ++ last).map fun b => [b]) = none := by
  decide +kernel

/-! ## The encoder -/

/-- C60. Encoding two lists of chunks in one session gives what is obtained from encoding each in a session of its own
and appending to the first delta the second without its five bytes of header. -/
theorem sessions_join (dict : Bytes) (hdict : dict.length < 2 ^ 31) (flags : Nat) (hb : flags &&& 4 = 0)
    (matching : Bool) (chunks1 chunks2 : List Bytes)
    (hs : ∀ data ∈ chunks1 ++ chunks2, dict.length + data.length < 2 ^ 31 ∧ data.length + 64 < 2 ^ 31) :
    ∃ delta1 delta2, encode dict flags matching chunks1 = .ok (some delta1) ∧
      encode dict flags matching chunks2 = .ok (some delta2) ∧
      encode dict flags matching (chunks1 ++ chunks2) = .ok (some (delta1 ++ delta2.drop 5)) := by
  obtain ⟨engine, window, h1, h2, h3, h4⟩ := encoder_protocol dict hdict flags hb matching
  have one : ∀ chunks : List Bytes, (∀ data ∈ chunks, dict.length + data.length < 2 ^ 31 ∧ data.length + 64 < 2 ^ 31) →
      encode dict flags matching chunks = .ok (some (Writer.header flags ++ chunks.flatMap window)) := by
    intro chunks hs
    obtain ⟨e', k⟩ := h2 ([.start] ++ chunks.map .chunk ++ [.finish]) (by
      intro data hm
      simp at hm
      exact hs data hm)
    simp only [encode, h1, k, protocol_encode]
    rw [if_pos (by simp)]
    simp [List.flatMap_map]
  refine ⟨_, _, one _ fun data hm => hs data (List.mem_append_left _ hm),
    one _ fun data hm => hs data (List.mem_append_right _ hm), ?_⟩
  rw [one _ hs]
  have h5 : (Writer.header flags).length = 5 := by unfold Writer.header; split <;> rfl
  rw [← h5, List.drop_left]
  simp [List.flatMap_append, List.append_assoc]

/-- C60. So deltas of separate sessions, joined, decode to the targets one after the other, in any division into chunks. -/
theorem joined_round_trip (dict : Bytes) (hdict : dict.length < 2 ^ 31) (flags : Nat) (hb : flags &&& 4 = 0)
    (matching : Bool) (chunks1 chunks2 : List Bytes)
    (hs : ∀ data ∈ chunks1 ++ chunks2, dict.length + data.length < 2 ^ 31 ∧ data.length + 64 < 2 ^ 31)
    (s : Settings) (hwin : ∀ data ∈ chunks1 ++ chunks2, data.length ≤ s.maxWindow)
    (hfile : (chunks1 ++ chunks2).flatten.length ≤ s.maxFile) :
    ∃ delta1 delta2, encode dict flags matching chunks1 = .ok (some delta1) ∧
      encode dict flags matching chunks2 = .ok (some delta2) ∧
      ∀ cs : List Bytes, cs.flatten = delta1 ++ delta2.drop 5 →
        (configured s).decode dict cs = some (chunks1.flatten ++ chunks2.flatten) := by
  obtain ⟨d1, d2, h1, h2, h3⟩ := sessions_join dict hdict flags hb matching chunks1 chunks2 hs
  obtain ⟨d, h4, h5⟩ := round_trip dict hdict flags hb matching (chunks1 ++ chunks2) hs s hwin hfile
  rw [h3] at h4
  simp only [Except.ok.injEq, Option.some.injEq] at h4
  subst h4
  exact ⟨d1, d2, h1, h2, fun cs hcs => by rw [h5 cs hcs, List.flatten_append]⟩

/-- An instance: the chunks of the two sessions and the limits. -/
example : let c : Bytes := List.replicate 40 0x61
    (∀ data ∈ [c, []] ++ [c], ([] : Bytes).length + data.length < 2 ^ 31 ∧ data.length + 64 < 2 ^ 31) ∧
    (3 : Nat) &&& 4 = 0 ∧ (∀ data ∈ [c, []] ++ [c], data.length ≤ ({} : Settings).maxWindow) ∧
    ([c, []] ++ [c]).flatten.length ≤ ({} : Settings).maxFile := by decide +kernel

end Props
end Vcd
