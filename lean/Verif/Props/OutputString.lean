import Verif.Proof.OutputCount
import Verif.Proof.OutputEncoder
import Verif.Props.Rfc

/-!
# C54: output strings are resized at most once per window

src/google/vcdecoder.h:76-78: "output_string is guaranteed to be resized no more than once for each
window in the VCDIFF delta file. This rule is irrespective of the number of calls to DecodeChunk()."
src/encodetable.cc:319-321: "make sure the output string is resized only once at most".

`OutString.performAll g o ops` is the string `o` after the operations `ops`, if it chooses its capacities as
`g` says; `Growth.Steady g` says that the capacities are sufficient, and that a `reserve` which is repeated
changes nothing. `opsOf (d.events cs)` are the operations performed by the calls `cs` on their output
string, and `FileCodeN` is the grammar of delta files with the number of windows (`Verif.Spec.OutputString`).
-/

namespace Vcd.Props
open Vcd Vcd.Spec

/-- C54, decoder: if a delta is accepted, in whatever chunks, then it consists of some number of windows, and
the string to which its target has been appended has been resized at most that many times. -/
theorem resized_once_per_window (s : Settings) (dict T : Bytes) (cs : List Bytes)
    (h : (configured s).decode dict cs = some T) :
    ∃ n, FileCodeN library s dict n cs.flatten T ∧
      ∀ (g : Growth) (o : OutString), g.Steady → o.Ok →
        let o' := o.performAll g (opsOf (((configured s).start dict).events (cs.map .chunk)))
        o'.text = o.text ++ T ∧ o'.resizes ≤ o.resizes + n := by
  obtain ⟨T', hN⟩ := decode_count (s := s) (d := configured s) rfl rfl rfl rfl rfl h
  have hT : T' = T := grammar_unambiguous s dict _ _ _ hN.forget (accepted_follows_grammar_partial s dict T cs h)
  subst hT
  refine ⟨_, hN, ?_⟩
  intro g o hg ho
  have h0 : DecInv (configured s) := by intro hx; simp [configured] at hx
  have h1 : DecInv ((configured s).start dict) := h0.call (c := .start dict) rfl
  have hrem : ((configured s).start dict).rem = 0 := rfl
  obtain ⟨p, hp⟩ := events_room hg h1 (cs.map .chunk) (o := o) (k := 0)
    (by rw [hrem]; exact ⟨ho, Or.inr (Or.inl ⟨rfl, ho⟩)⟩)
  refine ⟨?_, by simpa using pay_prefix hp (List.prefix_refl _)⟩
  obtain ⟨e, k1, k2⟩ := decode_some.1 h
  obtain ⟨rs, k3, k4⟩ := feed_calls k1
  have := events_text h1 k3
  rw [performAll_text]
  congr 1
  change textOf _ = T'
  rw [this]
  exact k4.1

/-- C54, decoder, at every moment and for any use of it: whatever is called, in whatever order, and however the
calls end, the string has never been resized more often than sizes of target windows have been read so
far. -/
theorem resized_once_per_size_read (cs : List DecoderCall) (g : Growth) (o : OutString) (hg : g.Steady) (ho : o.Ok)
    (pre : List OutEvent) (hp : pre <+: ({} : Decoder).events cs) :
    (o.performAll g (opsOf pre)).resizes ≤ o.resizes + windowsOf pre := by
  have hrem : ({} : Decoder).rem = 0 := rfl
  obtain ⟨p, h⟩ := events_room hg DecInv.new cs (o := o) (k := 0)
    (by rw [hrem]; exact ⟨ho, Or.inr (Or.inl ⟨rfl, ho⟩)⟩)
  simpa using pay_prefix h hp

/-- The operations are those that append the text which the calls are said to output elsewhere. -/
theorem operations_append_output (cs : List DecoderCall) (rs : List DecoderReply) (d : Decoder)
    (h : ({} : Decoder).calls cs = .ok (rs, d)) : appendedBy (opsOf (({} : Decoder).events cs)) = rs.flatMap (·.out) :=
  events_text DecInv.new h

/-- C54, encoder: a chunk is appended to the string with at most one resize, in the binary formats and in JSON. -/
theorem encoder_resizes_once (e e' : Encoder) (data out : Bytes) (ret : Bool) (h : e.chunk data = .ok (ret, out, e')) :
    ∃ ops, e.chunkOps data = .ok ops ∧
      ∀ (g : Growth) (o : OutString), (∀ c n, n ≤ g.reserve c n) →
        (o.performAll g ops).text = o.text ++ out ∧ (o.performAll g ops).resizes ≤ o.resizes + 1 := by
  obtain ⟨ops, h1, h2, h3⟩ := chunkOps_spec h
  refine ⟨ops, h1, fun g o hg => ⟨by rw [performAll_text, h2], ?_⟩⟩
  rcases h3 with rfl | ⟨b, rfl⟩ | ⟨n, as, rfl, k1, k2⟩
  · simp [OutString.performAll]
  · simp only [OutString.performAll, List.foldl, OutString.perform, OutString.recap]
    repeat' split
    all_goals simp
  · exact reserved_fit g hg k1 (Nat.le_of_eq k2) o

/-! ## The hypotheses can be met -/

/-- `std::string` as C++20 has it: `reserve` never makes it smaller. -/
def doubling : Growth where
  append c n := max n (2 * c)
  reserve c n := if n ≤ c then c else max n (2 * c)

/-- A string that fits its capacity exactly when it is asked to `reserve`. -/
def fitting : Growth where
  append c n := max n (2 * c)
  reserve _ n := n

theorem doubling_steady : doubling.Steady := by
  refine ⟨?_, ?_, ?_⟩ <;> intro c n <;> simp only [doubling]
  · omega
  · split <;> omega
  · grind

theorem fitting_steady : fitting.Steady := by
  refine ⟨?_, ?_, ?_⟩ <;> intro c n <;> simp only [fitting]
  · omega
  · omega

/-- Four ADDs of five bytes in an interleaved window of twenty. -/
def pieces : List Bytes :=
  [[0xD6, 0xC3, 0xC4, 0x53, 0, 0, 29, 20, 0, 0, 24, 0, 6, 0x61, 0x62, 0x63, 0x64, 0x65], [6, 0x61, 0x62, 0x63, 0x64, 0x65],
    [6, 0x61, 0x62, 0x63, 0x64, 0x65], [6, 0x61, 0x62, 0x63, 0x64, 0x65]]

/-- Four calls output parts of the same window, and the one resize takes place; without the `reserve`s
there would be two. -/
example :
    let ops := opsOf ((({} : Decoder).start []).events (pieces.map .chunk))
    (({} : Decoder).decode [] pieces).isSome = true ∧
    (({ capacity := 7 } : OutString).performAll doubling ops).resizes = 1 ∧
    (({ capacity := 7 } : OutString).performAll fitting ops).resizes = 1 ∧
    (({ capacity := 7 } : OutString).performAll doubling (ops.filter fun
      | .append _ => true
      | .reserve _ => false)).resizes = 2 := by
  decide +kernel

/-- A window of an encoder with checksums is announced, and appended in thirteen parts. -/
example :
    (match Engine.init (List.replicate 20 0x61) with
     | .ok (some engine) =>
       match (Encoder.new engine 3 true).call .start with
       | .ok (_, e) =>
         match e.chunkOps (List.replicate 30 0x61 ++ [0x62]) with
         | .ok ops => decide (ops.length = 14 ∧ ops.head? = some (.reserve ((appendedBy ops).length)) ∧
             (({} : OutString).performAll doubling ops).resizes = 1)
         | .error _ => false
       | .error _ => false
     | _ => false) = true := by
  decide +kernel

/-- The same chunk in the JSON format is appended in one part. -/
example :
    (match Engine.init (List.replicate 20 0x61) with
     | .ok (some engine) =>
       match (Encoder.new engine 4 true).call .start with
       | .ok (_, e) =>
         match e.chunkOps (List.replicate 30 0x61 ++ [0x62]) with
         | .ok ops => decide (ops.length = 1 ∧ (appendedBy ops).length = 34 ∧ (({} : OutString).performAll doubling ops).resizes = 1)
         | .error _ => false
       | .error _ => false
     | _ => false) = true := by
  decide +kernel

/-! ## Strings that give back capacity -/

/-- `std::string` as C++11 to C++17 allow it, and as libstdc++ implemented it: `reserve` at least doubles the
capacity if it is too small, and otherwise makes it smaller, but not smaller than 15 bytes. -/
def shrinking : Growth where
  append c n := max n (2 * c)
  reserve c n := if c < n then max n (2 * c) else max n 15

/-- Against the guarantee in src/google/vcdecoder.h:76-78: `ReserveAdditionalBytes` calls `reserve` without a look
at the capacity (src/google/output_string.h:84-86), and so an empty `std::string` of that kind is resized
twice for a file of a single window. -/
theorem resized_twice_for_one_window :
    let o : OutString := { capacity := 15 }
    (∀ c n, n ≤ shrinking.append c n) ∧ (∀ c n, n ≤ shrinking.reserve c n) ∧
    ∃ T, ({} : Decoder).decode [] pieces = some T ∧ windowsOf ((({} : Decoder).start []).events (pieces.map .chunk)) = 1 ∧
      (o.performAll shrinking (opsOf ((({} : Decoder).start []).events (pieces.map .chunk)))).resizes = 2 := by
  refine ⟨?_, ?_, _, rfl, by decide +kernel, by decide +kernel⟩
  · intro c n; simp only [shrinking]; omega
  · intro c n; simp only [shrinking]; split <;> omega

end Vcd.Props
