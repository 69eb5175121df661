import Verif.Spec.Rfc

/-!
# What a decoder keeps between two calls

The sizes of the strings that one `VCDiffStreamingDecoder` owns between calls: input that could not be used yet
(`unparsed_bytes_`), target data that later copy instructions may refer to (`decoded_target_`), and what the nested
decoders for custom code tables own. The dictionary belongs to the caller; the address caches and code tables have a
fixed size.
-/

namespace Vcd.Spec

/-- Bytes of the delta that the decoder has been given and has to keep (src/vcdecoder.cc:548). -/
def heldInput (d : Decoder) : Nat := ((d.top :: d.nested).map fun L => L.unparsed.length).sum

/-- Target data that the decoder keeps (src/vcdecoder.cc:556). -/
def heldTarget (d : Decoder) : Bytes := d.top.decoded

/-- Bytes kept for custom code tables that are being read: `custom_code_table_string_` of all decoders and
`decoded_target_` of the nested ones (src/vcdecoder.cc:556, 570). -/
def heldTables (d : Decoder) : Nat :=
  ((d.top :: d.nested).map fun L => L.tableString.length).sum + (d.nested.map fun L => L.decoded.length).sum

/-- The opcodes of the table all begin with an instruction (those of the default table do). -/
def NoNoops (t : CodeTable) : Prop := ∀ op, (t.first op).inst ≠ vcdNoop

end Vcd.Spec
