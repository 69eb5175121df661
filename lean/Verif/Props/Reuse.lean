import Verif.Props.Stream
import Verif.Proof.Leftover
import Verif.Proof.RfcRead

/-!
# C12: what is left in a decoder by earlier uses
-/

namespace Vcd
open Spec

theorem Spec.TableCode.header {tol : Tolerance} {v hi : UInt8} {nb sb tdelta : Bytes} {near same : Nat} {t : CodeTable}
    (htd : TableCode tol tdelta t) (hl : tol.tables = .library) (hv : v = 0 ∨ v = 0x53) (hhi : hi &&& 3 = 2)
    (hnb : NumCode nb near) (hnear : near ≤ 255) (hsb : NumCode sb same) (hsame : same ≤ 255)
    (ht : ValidTable (near + same + 1) t) (left : CodeTable) :
    FileHeaderCode tol ([0xD6, 0xC3, 0xC4, v, hi] ++ nb ++ sb ++ tdelta) (v == 0x53) { table := t, near, same } left := by
  obtain ⟨hdr, tws, w, T, T', ext, c, rfl, k1, k2, k3, k4, k5⟩ := htd
  have hT : (T ++ T').length = 1536 := by rw [k5]; exact t.toBytes_length
  have e : CodeTable.ofBytes (T ++ T') hT = t := by
    have := t.ofBytes_toBytes
    simp only [k5]; exact this
  exact .library hl hv hhi hnb hnear hsb hsame k1 k2 k3 k4 hT (Or.inl ⟨by rw [e]; exact ht, e.symm⟩)

theorem Spec.TableCode.mono {tol tol' : Tolerance} {b : Bytes} {t : CodeTable} (h : TableCode tol b t) (hm : tol.Le tol') :
    TableCode tol' b t := by
  obtain ⟨hdr, tws, w, T, T', ext, c, k0, k1, k2, k3, k4, k5⟩ := h
  exact ⟨hdr, tws, w, T, T', ext, c, k0, k1.mono hm, k2.mono hm, k3, k4.mono hm, k5⟩

namespace Props

/-- C12: of all earlier uses of a decoder, accepted or not, with custom code tables or without, nothing but
the settings and a code table is left: a further use gives the replies of a decoder that is new but for
its code table, and this is the default one, or one that the header of an earlier delta brought. -/
theorem only_code_table_survives (ss : List Session) (ht : ∀ s ∈ ss, ∀ b, DecoderCall.setAllowTarget b ∉ s.body)
    (rs : List DecoderReply) (d : Decoder) (h : ({} : Decoder).calls (ss.flatMap Session.calls) = .ok (rs, d)) :
    ∃ left : CodeTable, (left = defaultTable ∨ ∃ s ∈ ss, BringsTable s.stream left) ∧
      ∀ (dict : Bytes) (cs : List DecoderCall), (d.calls (.start dict :: cs)).map Prod.fst =
        ((leftWith (Settings.after {} (ss.flatMap Session.calls)) left).calls (.start dict :: cs)).map Prod.fst := by
  obtain ⟨left, h1, h2⟩ := Idle.sessions (d := {}) (t := defaultTable) ⟨rfl, rfl⟩ DecInv.new ss h
  have hset := settings_sessions DecInv.new rfl ht h
  have h0 : ({} : Decoder).settings = {} := rfl
  rw [h0] at hset
  refine ⟨left, h2, fun dict cs => ?_⟩
  have := replies_leftWith h1.stopped dict cs
  rw [hset, h1.table] at this
  exact this

/-- C12, part: if no header of the earlier deltas brought a usable code table other than the default one,
a further use gives exactly the replies of a new decoder with the same settings. This covers deltas that end
inside their header, those with unusable code tables and those whose table is refused. Missing: earlier
deltas with another code table (`custom_table_leaks`). -/
theorem reuse_without_usable_tables_partial (ss : List Session)
    (hb : ∀ s ∈ ss, ∀ t, BringsTable s.stream t → t = defaultTable)
    (ht : ∀ s ∈ ss, ∀ b, DecoderCall.setAllowTarget b ∉ s.body)
    (rs : List DecoderReply) (d : Decoder) (h : ({} : Decoder).calls (ss.flatMap Session.calls) = .ok (rs, d))
    (dict : Bytes) (cs : List DecoderCall) :
    (d.calls (.start dict :: cs)).map Prod.fst =
      ((configured (Settings.after {} (ss.flatMap Session.calls))).calls (.start dict :: cs)).map Prod.fst := by
  obtain ⟨left, h1, h2⟩ := only_code_table_survives ss ht rs d h
  have : left = defaultTable := by
    rcases h1 with h1 | ⟨s, hs, h1⟩
    · exact h1
    · exact hb s hs left h1
  subst this
  exact h2 dict cs

/-- C12, C04: what a used decoder accepts, in whatever chunks, is a file of the grammar in which the code table left
from earlier uses takes the place of the default one in files that bring none. -/
theorem used_decoder_sound (s : Settings) (left : CodeTable) (dict T : Bytes) (cs : List Bytes)
    (h : (leftWith s left).decode dict cs = some T) : FileCode library s dict cs.flatten T left :=
  decode_sound (d := leftWith s left) rfl rfl rfl rfl rfl h

/-- C12, C04: byte by byte a used decoder accepts exactly these files. -/
theorem used_decoder_exact (s : Settings) (left : CodeTable) (dict T delta : Bytes) :
    (leftWith s left).decode dict (singles delta) = some T ↔ FileCode library s dict delta T left := by
  refine ⟨fun h => ?_, fun h => decode_complete_singles (d := leftWith s left) rfl rfl rfl rfl rfl h rfl rfl (by decide)⟩
  have := used_decoder_sound s left dict T _ h
  rwa [singles_flatten] at this

/-- C12, C03: a delta without surplus bytes in a section of the grammar for the code table left from earlier uses is
accepted in whatever chunks. -/
theorem accepted_after_any_history (s : Settings) (left : CodeTable) (dict T : Bytes) (cs : List Bytes)
    (h : FileCode noSurplus s dict cs.flatten T left) : (leftWith s left).decode dict cs = some T :=
  one_call_then_any_chunks (leftWith s left) rfl dict cs.flatten T
    (decode_complete (d := leftWith s left) rfl rfl rfl rfl rfl h rfl rfl rfl (by decide)) cs rfl

/-- C04: a delta can be read in only one way as a header and windows: whichever way its header is read, the
delta is a file for `T` exactly if the rest is a sequence of windows for `T` in the coding of this header. -/
theorem header_read_once (s : Settings) (left : CodeTable) (dict T hdr ws : Bytes) (ext : Bool) (c : Coding)
    (h : FileHeaderCode library hdr ext c left) :
    FileCode library s dict (hdr ++ ws) T left ↔ Windows c ext library s dict [] ws T := by
  rw [← used_decoder_exact]
  exact decode_header_iff (d := leftWith s left) rfl rfl rfl rfl rfl h

/-- C12: a delta that brings its own usable code table is decoded, byte by byte, in the same way by all decoders with the
same settings, whatever uses came before. -/
theorem own_table_prevails (s : Settings) (left : CodeTable) (dict : Bytes) (v hi : UInt8) (nb sb tdelta ws : Bytes)
    (near same : Nat) (t : CodeTable) (hv : v = 0 ∨ v = 0x53) (hhi : hi &&& 3 = 2) (hnb : NumCode nb near) (hnear : near ≤ 255)
    (hsb : NumCode sb same) (hsame : same ≤ 255) (htd : TableCode library tdelta t) (ht : ValidTable (near + same + 1) t) :
    (leftWith s left).decode dict (singles ([0xD6, 0xC3, 0xC4, v, hi] ++ nb ++ sb ++ tdelta ++ ws)) =
      (configured s).decode dict (singles ([0xD6, 0xC3, 0xC4, v, hi] ++ nb ++ sb ++ tdelta ++ ws)) := by
  have key := htd.header (t := t) rfl hv hhi hnb hnear hsb hsame ht
  apply Option.ext
  intro U
  exact (decode_header_iff (d := leftWith s left) rfl rfl rfl rfl rfl (key left)).trans
    (decode_header_iff (d := configured s) rfl rfl rfl rfl rfl (key defaultTable)).symm

/-- A use of a decoder for a delta that brings a code table with opcode 2 changed from ADD 1 to ADD 5. -/
def tableSession : Session where
  pre := [.setMaxFile 100]
  dict := []
  body := [.chunk [0xD6, 0xC3, 0xC4, 0, 2, 4, 3, 0xD6, 0xC3, 0xC4, 0, 0, 1, 0x8C, 0, 0, 0x11, 0x8C], .chunk [0, 0,
      1, 7, 3, 5, 0x13, 0x84, 2, 2, 0x13, 0x87, 0x7D, 0, 0x84, 3]]
  pre_inner := by decide
  body_inner := by decide

/-- A use for a delta whose header brings an unusable code table, which is ignored: the default one, but
with two NEAR slots and no SAME block. -/
def badTableSession : Session where
  pre := []
  dict := []
  body := [.chunk [0xD6, 0xC3, 0xC4, 0, 2, 2, 0, 0xD6, 0xC3, 0xC4, 0, 0, 1, 0x8C, 0, 0, 10, 0x8C, 0, 0, 0, 3, 1, 19, 0x8C, 0, 0]]
  pre_inner := by decide
  body_inner := by decide

/-- The hypotheses of `only_code_table_survives` are met, after three uses: with a code table, one that
fails, and one with an unusable code table. -/
example : (∀ s ∈ [tableSession, failingSession, badTableSession], ∀ b, DecoderCall.setAllowTarget b ∉ s.body) ∧
    (({} : Decoder).calls ([tableSession, failingSession, badTableSession].flatMap Session.calls)).toOption.map
      (fun p => p.1.map DecoderReply.ret) = some [true, true, true, true, true, true, true, false, false, true, true, true] := by
  refine ⟨by simp [tableSession, failingSession, badTableSession], by decide +kernel⟩

end Props
end Vcd
