import Verif.Proof.RfcComplete
import Verif.Proof.RfcProps

/-!
# File headers of the grammar can be read in one way only
-/

namespace Vcd
open Spec

variable {s : Settings} {left : CodeTable}

section
variable {d : Decoder} (hs : d.top.started = false) (ht : d.top.table = left)
    (allow : s.allowTarget = d.top.allowTarget) (window : s.maxWindow = d.top.maxWin)
    (file : s.maxFile = d.top.maxFile)
include hs ht allow window file

/-- After a file header, byte by byte. -/
theorem header_singles {dict hdr : Bytes} {ext : Bool} {c : Coding} (h : FileHeaderCode library hdr ext c left) :
    ∃ L, (d.start dict).feed (singles hdr) = some ([], { top := L, nested := [] }) ∧
      Headed c ext s dict (d.start dict).top L ∧ L.unparsed = [] := by
  have hf := Fed.start d hs dict
  have hconf := conf_start hs allow window file dict
  have e := start_fresh hs dict
  have hn : (d.start dict).nested = [] := by rw [e]
  have hc : (d.start dict).top.cache = none := by rw [e]; rfl
  have hu : (d.start dict).top.unparsed = [] := by rw [e]; rfl
  have htt : (d.start dict).top.table = left := by rw [e]; exact ht
  obtain ⟨cs, L, e1, f1, hL, hu1⟩ := header_feed h rfl rfl (by decide) hf.chain.node hc hu hconf htt
  have hd0 : d.start dict = { top := (d.start dict).top, nested := [] } := by rw [← hn]
  rw [← hd0] at f1
  obtain ⟨e', h2, h3⟩ := feed_refine_all hf (css := cs.map singles) (by rw [map_singles_flatten]; exact f1)
  rw [flatten_map_singles, e1] at h2
  obtain ⟨k1, k2⟩ := ChainEqv.closed h3 hL.win
  refine ⟨L, ?_, hL, hu1⟩
  rw [h2]
  obtain ⟨t, ns⟩ := e'
  simp only at k1 k2
  rw [k1, k2]

/-- A file with this header. -/
theorem decode_header_iff {dict hdr ws T : Bytes} {ext : Bool} {c : Coding} (h : FileHeaderCode library hdr ext c left) :
    d.decode dict (singles (hdr ++ ws)) = some T ↔ Windows c ext library s dict [] ws T := by
  refine ⟨?_, fun hw => decode_complete_singles hs ht allow window file (.mk h hw) rfl rfl (by decide)⟩
  intro h1
  obtain ⟨L, f1, hL, hu⟩ := header_singles hs ht allow window file (dict := dict) h
  obtain ⟨e, h2, h2'⟩ := decode_some.1 h1
  rw [show singles (hdr ++ ws) = singles hdr ++ singles ws by simp [singles], feed_append] at h2
  obtain ⟨d1, o1, o2, k1, k2, rfl⟩ := h2
  rw [f1] at k1
  simp only [Option.some.injEq, Prod.mk.injEq] at k1
  obtain ⟨rfl, rfl⟩ := k1
  rw [List.nil_append]
  have hf := Fed.start d hs dict
  have hf1 := hf.feed f1
  have hfe := hf1.feed k2
  have hdec := hL.decoded
  -- the decoder is between two windows at the end
  have hwin : e.top.win = none ∧ e.top.unparsed = [] := by
    have hft := (FileTrack.start (tol := library) d hs ht allow window file dict).feed rfl rfl rfl hf
      (feed_append.2 ⟨_, _, _, f1, k2, rfl⟩)
    rcases hft.complete hfe h2' with ⟨q1, _⟩ | ⟨_, _, _, _, _, _, _, _, hu2, _, hw2, _⟩
    · have hne : hdr ≠ [] := by
        cases h <;> simp
      simp only [List.nil_append, List.flatten_append, singles_flatten] at q1
      exact absurd (List.append_eq_nil_iff.1 q1).1 hne
    · exact ⟨hw2, hu2⟩
  by_cases hsum : c.near + c.same ≤ 254
  · have hB : Between c ext s dict L ([] ++ []) := hL.between hsum
    have htr := hB.track (tol := library) .nil (Nat.le_of_eq hL.node.out) (fun _ _ => hdec) L.unparsed
    obtain ⟨ws2, u2, T2, p2, g1, g2, g3⟩ := htr.feed rfl (Or.inl rfl) hf1 hL.cache rfl k2
    obtain ⟨Lc, b1, b2, _, b4, _⟩ := g2.base
    obtain ⟨x1, x2⟩ := b4 hwin.1
    rw [hwin.2] at x2
    subst x2
    have hp2 : p2 = [] := List.append_cancel_left (as := e.top.decoded) (by
      rw [List.append_nil]
      rw [← x1] at b2
      exact b2.symm)
    subst hp2
    rw [hu, singles_flatten] at g1
    simp only [List.append_nil, List.nil_append] at g1 g3
    rw [← g1, g3]
    exact g2.windows
  · have hi := hL.stuck hsum
    obtain ⟨r1, r2⟩ := stuck_feed hf1 hL.cache rfl hi hL.win hdec k2
    rw [singles_flatten, hu, List.nil_append, hwin.2] at r2
    rw [← r2, r1]
    exact .nil
end

end Vcd
