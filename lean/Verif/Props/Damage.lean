import Verif.Proof.Damage
import Verif.Props.Custom
import Verif.Props.Stream
import Verif.Props.Dictionary

/-!
# C67: a damaged checksum or literal is noticed
-/

namespace Vcd.Props
open Vcd Vcd.Spec

/-- C67: a file is refused, in whatever chunks and with whatever limits, if the checksum of one of its windows has been
replaced by another one of the same number of bytes, whatever follows that window. -/
theorem damaged_checksum_refused (s s' : Settings) (dict hdr ws w w' u T0 T : Bytes) (c : Coding) (cs : List Bytes)
    (hh : FileHeaderCode library hdr true c) (hw : Windows c true library s dict [] ws T0)
    (h : WindowCode c true library s dict T0 w T) (hd : ChecksumChanged w w') (hcs : cs.flatten = hdr ++ (ws ++ (w' ++ u))) :
    (configured s').decode dict cs = none := by
  refine refused_in_any_chunks s' dict cs ?_
  rintro ⟨A, hA⟩
  rw [hcs] at hA
  refine no_file_ever hh hw ?_ (fun s2 w2 T2 r h2 e => checksum_changed h hd h2 e) hA
  obtain ⟨R, cks, _, _, _, _, rfl⟩ := hd
  simp

/-- C67: the same for one byte of the text of an ADD instruction, if every instruction of the window takes what it
produces from the delta or from the source segment. -/
theorem damaged_literal_refused (s s' : Settings) (dict hdr ws w w' u T0 T : Bytes) (c : Coding) (n : Nat) (ops : List Op) (cs : List Bytes)
    (hh : FileHeaderCode library hdr true c) (hw : Windows c true library s dict [] ws T0)
    (h : WindowCode c true library s dict T0 w T) (hd : LiteralChanged c n ops w w') (ho : ∀ o ∈ ops, FromOutside n o)
    (hcs : cs.flatten = hdr ++ (ws ++ (w' ++ u))) :
    (configured s').decode dict cs = none := by
  refine refused_in_any_chunks s' dict cs ?_
  rintro ⟨A, hA⟩
  rw [hcs] at hA
  refine no_file_ever hh hw ?_ (fun s2 w2 T2 r h2 e => literal_changed h hd ho h2 e) hA
  obtain ⟨R, head, a, z, data, inst, addr, x, y, front, back, _, e1, _, _, _, _, rfl⟩ := hd
  have e2 := List.append_cancel_right (e1.symm.trans R.bytes)
  rw [e2]
  simp

/-- A window with a checksum whose instruction adds `abc`, in the usual layout. -/
def addedWindow : Bytes := [5, 0, 0, 13, 3, 0, 3, 1, 0, 0x92, 0xa8, 0x82, 0x26, 0x61, 0x62, 0x63, 4]

def addedReading : Reading addedWindow where
  ind := 5
  seg := [0, 0]
  dl := [13]
  tlen := [3]
  di := 0
  dlen := [3]
  ilen := [1]
  alen := [0]
  cks := [0x92, 0xa8, 0x82, 0x26]
  body := [0x61, 0x62, 0x63, 4]
  bytes := rfl
  noSource := fun h => absurd h (by decide)
  source := fun _ => ⟨[0], [0], rfl, ⟨[], 0, rfl, by simp, by simp [continues]⟩, ⟨[], 0, rfl, by simp, by simp [continues]⟩⟩
  hdl := ⟨[], 13, rfl, by simp, by simp [continues]⟩
  htlen := ⟨[], 3, rfl, by simp, by simp [continues]⟩
  hdlen := ⟨[], 3, rfl, by simp, by simp [continues]⟩
  hilen := ⟨[], 1, rfl, by simp, by simp [continues]⟩
  halen := ⟨[], 0, rfl, by simp, by simp [continues]⟩

/-- The hypotheses of `damaged_checksum_refused` are met: the last byte of the checksum is another one. -/
example : FileHeaderCode library [0xD6, 0xC3, 0xC4, 0x53, 0] true defaultCoding ∧
    Windows defaultCoding true library { maxWindow := 3, maxFile := 3, allowTarget := false } [] [] [] [] ∧
    WindowCode defaultCoding true library { maxWindow := 3, maxFile := 3, allowTarget := false } [] [] checkedWindow [0x61, 0x62, 0x63] ∧
    ChecksumChanged checkedWindow (checkedWindow.set 10 0x27) :=
  ⟨FileHeaderCode.plain (v := 0x53) (Or.inr rfl) (by decide), .nil, checked_window_conforms.1,
    checkedReading, [0x92, 0xa8, 0x82, 0x27], by decide, checkedReading_checksum, rfl, by decide, rfl⟩

/-- The hypotheses of `damaged_literal_refused` are met, in the interleaved layout: `b` is replaced by `z`. -/
example : LiteralChanged defaultCoding 0 [.add [0x61, 0x62, 0x63]] checkedWindow (checkedWindow.set 13 0x7a) ∧
    ∀ o ∈ [Op.add [0x61, 0x62, 0x63]], FromOutside 0 o := by
  refine ⟨⟨checkedReading, [4, 13, 3, 0, 0, 4, 0, 0x92, 0xa8, 0x82, 0x26], [0x61], [0x63], [], [4, 0x61, 0x7a, 0x63], [], 0x62, 0x7a,
    [.opcode 4, .size []], [], by decide, rfl, by decide, ⟨Or.inl ⟨rfl, rfl⟩, ?_, ?_, ⟨rfl, ?_⟩, ?_⟩, rfl, rfl, rfl⟩, by simp [FromOutside]⟩
  · rw [if_pos (by decide)]
    exact checkedReading_checksum
  · exact .cons (op := 4) (i1 := [.size [], .data [0x61, 0x62, 0x63]]) (o1 := [.add [0x61, 0x62, 0x63]])
      (i2 := []) (o2 := []) (items := []) (ops := [])
      (.add (by decide +kernel) (Or.inr ⟨by decide +kernel, rfl, by decide +kernel⟩))
      (.noop (by decide +kernel)) .nil
  · exact Or.inr ⟨⟨[.opcode 4, .size []], [0x61, 0x62, 0x63], Or.inl rfl⟩, ⟨[], _, rfl, by decide⟩⟩
  · exact ⟨[], [4, 0x61, 0x62, 0x63], [], rfl, rfl, rfl, rfl, rfl⟩

/-- One byte of the data section of `addedWindow` is another one; with the model, such files are refused. -/
example : DataChanged addedWindow (addedWindow.set 14 0x7a) :=
  ⟨addedReading, [5, 0, 0, 13, 3, 0, 3, 1, 0, 0x92, 0xa8, 0x82, 0x26], [0x61], [0x63, 4], 0x62, 0x7a, by decide,
    ⟨[0x92, 0xa8, 0x82], 0x26, rfl, by simp [continues], by simp [continues]⟩, rfl, by decide, rfl, by decide, rfl⟩

example : ({} : Decoder).decode [] [0xD6 :: 0xC3 :: 0xC4 :: 0x53 :: 0 :: addedWindow] = some [0x61, 0x62, 0x63] ∧
    ({} : Decoder).decode [] [0xD6 :: 0xC3 :: 0xC4 :: 0x53 :: 0 :: addedWindow.set 14 0x7a] = none ∧
    ({} : Decoder).decode [] [0xD6 :: 0xC3 :: 0xC4 :: 0x53 :: 0 :: checkedWindow.set 13 0x7a] = none := by
  decide +kernel

/-- C67: what the encoder writes with checksums: a window for each chunk that is not empty. If the checksum of such a window
is replaced, or, when the encoder has not been told to look for matches in the target, one byte of the data section or of
literal text, then no decoder accepts the file, whatever follows that window, in whatever chunks and with whatever limits. -/
theorem encoder_damage_noticed (dict : Bytes) (hdict : dict.length < 2 ^ 31) (flags : Nat) (hb : flags &&& 4 = 0) (hc : flags &&& 2 ≠ 0)
    (matching : Bool) (chunks : List Bytes)
    (hs : ∀ data ∈ chunks, dict.length + data.length < 2 ^ 31 ∧ data.length + 64 < 2 ^ 31) :
    ∃ window : Bytes → Bytes,
      encode dict flags matching chunks = .ok (some (Writer.header flags ++ (chunks.map window).flatten)) ∧
      window [] = [] ∧
      (∀ data ∈ chunks, data ≠ [] → Layout (flags &&& 1 != 0) true data (window data) ∧
        ∀ prev, WindowCode defaultCoding true strict { maxFile := prev.length + data.length, maxWindow := data.length, allowTarget := false }
          dict prev (window data) data) ∧
      ∀ front data back, chunks = front ++ data :: back → data ≠ [] → ∀ w',
        (ChecksumChanged (window data) w' ∨
          (matching = false ∧ (DataChanged (window data) w' ∨ ∃ n ops, LiteralChanged defaultCoding n ops (window data) w'))) →
        ∀ (s : Settings) (u : Bytes) (cs : List Bytes),
          cs.flatten = Writer.header flags ++ ((front.map window).flatten ++ (w' ++ u)) → (configured s).decode dict cs = none := by
  obtain ⟨engine, window, h1, h2, h3, h4⟩ := Encoder.protocol_full dict hdict flags hb matching
  have hf0 : (flags != 0) = true := by
    simp only [bne_iff_ne, ne_eq]
    rintro rfl
    exact hc rfl
  have hc2 : (flags &&& 2 != 0) = true := by simpa using hc
  rw [hf0, hc2] at h4
  obtain ⟨e', k⟩ := h2 ([.start] ++ chunks.map .chunk ++ [.finish]) (by
    intro data hm
    simp at hm
    exact hs data hm)
  refine ⟨window, ?_, h3, ?_, ?_⟩
  · simp only [encode, h1, k, protocol_encode]
    rw [if_pos (by simp)]
    rw [← List.flatMap_def]
    simp [List.flatMap_map]
  · intro data hm hne
    obtain ⟨_, w1, w2, _, _⟩ := h4 data hne (hs data hm).1 (hs data hm).2
    exact ⟨w1, fun prev => w2 _ prev (Nat.le_refl _) (Nat.le_refl _)⟩
  · rintro front data back rfl hne w' hd s u cs hcs
    have hm : data ∈ front ++ data :: back := by simp
    obtain ⟨_, _, w2, ⟨ops, hwhole, _, R, items, hwr⟩, _⟩ := h4 data hne (hs data hm).1 (hs data hm).2
    let S : Settings := { maxFile := front.flatten.length + data.length, maxWindow := front.flatten.length + data.length, allowTarget := true }
    have hhdr := Writer.header_code flags library
    rw [hf0] at hhdr
    have hws : Windows defaultCoding true library S dict [] (front.map window).flatten front.flatten := by
      have := Encoder.windows_of_chunks (s := S) (dict := dict) (ext := true) (prev := []) (chunks := front) (window := window) h3 (by
        intro x hx hxne prev hp
        have hx' : x ∈ front ++ data :: back := by simp [hx]
        obtain ⟨_, _, q, _⟩ := h4 x hxne (hs x hx').1 (hs x hx').2
        refine q S prev ?_ hp
        obtain ⟨l, r, rfl⟩ := List.append_of_mem hx
        simp only [S, List.flatten_append, List.flatten_cons, List.length_append]
        omega) (by simp [S])
      exact this.mono strict_le_library
    have hwin : WindowCode defaultCoding true library S dict front.flatten (window data) data :=
      (w2 S front.flatten (by simp [S]) (by simp [S])).mono strict_le_library
    have hlit : ∀ n ops', matching = false → LiteralChanged defaultCoding n ops' (window data) w' → ∀ o ∈ ops', FromOutside n o := by
      rintro n ops' rfl ⟨R', _, a, z, _, _, _, x, y, fr, bk, hi, _, _, hwr', _⟩
      obtain ⟨rfl, _, rfl⟩ := hwr'.unique hwin hwr hi
      intro o ho
      obtain ⟨pre, post, he⟩ := List.append_of_mem ho
      have := hwhole.emittable pre o post he
      cases o with
      | add bs => trivial
      | run b n => exact this
      | copy a n =>
        rcases this with ⟨_, _, h | ⟨h, _⟩⟩
        · exact h
        · cases h
    rcases hd with hd | ⟨hmf, hd | ⟨n, ops', hd⟩⟩
    · exact damaged_checksum_refused S s dict _ _ _ w' u _ _ _ cs hhdr hws hwin hd hcs
    · obtain ⟨n, ops', hd⟩ := hd.literal hwin
      exact damaged_literal_refused S s dict _ _ _ w' u _ _ _ n ops' cs hhdr hws hwin hd (hlit n ops' hmf hd) hcs
    · exact damaged_literal_refused S s dict _ _ _ w' u _ _ _ n ops' cs hhdr hws hwin hd (hlit n ops' hmf hd) hcs

/-- The hypotheses of `encoder_damage_noticed` are met, and the window it speaks of is `addedWindow`. -/
example : (2 : Nat) &&& 4 = 0 ∧ (2 : Nat) &&& 2 ≠ 0 ∧
    (encode [] 2 false [[0x61, 0x62, 0x63], [], [0x61]]).toOption.bind (fun r => r.map (List.take 22)) =
      some ([0xD6, 0xC3, 0xC4, 0x53, 0] ++ addedWindow) := by
  decide +kernel

/-- A RUN of 65521 bytes `x`, with its checksum, which is 0. -/
def runFile (x : UInt8) : Bytes :=
  [0xD6, 0xC3, 0xC4, 0x53, 0] ++ ([4, 13, 0x83, 0xFF, 0x71, 0, 1, 4, 0, 0, x, 0, 0x83, 0xFF, 0x71] ++ [])

theorem weighted_replicate (x : UInt8) (n : Nat) : 2 * weighted (List.replicate n x) = n * (n + 1) * x.toNat := by
  induction n with
  | zero => simp [weighted]
  | succ n ih =>
    simp only [List.replicate_succ, weighted, List.length_replicate, Nat.mul_add, Nat.add_mul, Nat.mul_one, Nat.one_mul] at ih ⊢
    omega

/-- C67, its limit: the checksum does not protect the byte of a RUN. The files `runFile x` differ only in that byte, and all
are accepted, for different targets. -/
theorem run_damage_unnoticed (x : UInt8) (cs : List Bytes) (hcs : cs.flatten = runFile x) :
    (configured {}).decode [] cs = some (List.replicate 65521 x) := by
  have hT : execOps [] [Op.run x 65521] = [] ++ List.replicate 65521 x := rfl
  have hlen : (List.replicate 65521 x).length = 65521 := List.length_replicate
  have had : adlerOf (List.replicate 65521 x) = 0 := by
    have h1 := adlerRun_low (List.replicate 65521 x) (0, 0) (by decide)
    have h2 := adlerRun_high (List.replicate 65521 x) (0, 0) (by decide)
    have h3 := weighted_replicate x 65521
    simp only [List.map_replicate, List.sum_replicate_nat] at h1
    simp only [Nat.zero_add, Nat.mul_zero] at h2
    have h4 : weighted (List.replicate 65521 x) = 65521 * (32761 * x.toNat) := by omega
    have e1 : (adlerRun (0, 0) (List.replicate 65521 x)).1 = 0 := by omega
    have e2 : (adlerRun (0, 0) (List.replicate 65521 x)).2 = 0 := by rw [h2, h4]; omega
    unfold adlerOf adlerValue
    rw [e1, e2]
  generalize List.replicate 65521 x = T at hT hlen had
  have hv : IsVarint [0x83, 0xFF, 0x71] := ⟨[0x83, 0xFF], 0x71, rfl, by simp [continues], by simp [continues]⟩
  refine conforming_accepted_partial {} [] (runFile x) T ?_ cs hcs
  have key : WindowCode defaultCoding true strict {} [] [] [4, 13, 0x83, 0xFF, 0x71, 0, 1, 4, 0, 0, x, 0, 0x83, 0xFF, 0x71] T := by
    refine WindowCode.mk (ext := true) (ind := 4) (di := 0) (seg := []) (src := []) (dl := [13]) (tlen := [0x83, 0xFF, 0x71]) (dlen := [1])
      (ilen := [4]) (alen := [0]) (cks := [0]) (data := [x]) (inst := [0, 0x83, 0xFF, 0x71])
      (addr := []) (items := [.opcode 0, .size [0x83, 0xFF, 0x71], .data [x]]) (ops := [.run x 65521])
      (surplus := 0) (.none rfl) ?_ (Or.inr (Or.inr ⟨⟨[.opcode 0, .size [0x83, 0xFF, 0x71]], [x], Or.inl rfl⟩,
        ⟨[], _, rfl, Nat.succ_pos _⟩⟩)) hT (by rw [hlen]; decide) (by rw [hlen]; decide) ?_ (Or.inl rfl)
      ⟨hv, by rw [hlen]; decide, by rw [hlen]; decide⟩ rfl (numCode_byte' rfl (by simp)) (numCode_byte' rfl (by decide))
      (numCode_byte' rfl (by decide)) ?_ (numCode_byte' rfl (by simp))
      (Or.inr (Or.inl (by decide))) (by decide)
    · exact .cons (op := 0) (i1 := [.size [0x83, 0xFF, 0x71], .data [x]]) (o1 := [.run x 65521])
        (i2 := []) (o2 := []) (items := []) (ops := [])
        (.run (by decide +kernel) (Or.inl ⟨by decide +kernel, hv, by decide, by decide⟩))
        (.noop (by decide +kernel)) .nil
    · simp [SectionCode, Item.dataBytes, Item.inst, Item.addr]
    · exact ⟨⟨[], 0, rfl, by simp, by simp [continues]⟩, by rw [had]; rfl⟩
  have := FileCode.mk (tol := strict) (s := {}) (dict := []) (FileHeaderCode.plain (v := 0x53) (hi := 0) (Or.inr rfl) (by decide))
    (Windows.cons key .nil)
  simpa [runFile] using this

end Vcd.Props
