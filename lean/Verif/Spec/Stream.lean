import Verif.Spec.Rfc

/-!
# Specification of prompt output

Independent of the model of the decoder: what has arrived of a window, and what it stands for.
-/

namespace Vcd.Spec

/-- The beginning of an interleaved window, in a file with the extensions whose target so far is `prev`: its bytes and
what they stand for. The header and some of the instructions, `items`, have arrived; they stand for `ops`, which produce
`X`. Those that are still to come, `rest`, stand for `later`, which produce `Y`, the remainder of the target, and
at least one byte. The rest of the window need not be what will arrive; all that is asked is that a window can
begin like that. The checksum can be any number. -/
inductive WindowBegun (c : Coding) (s : Settings) (dict prev : Bytes) : Bytes → Bytes → Prop
  | mk {ind di : UInt8} {seg src dl tlen dlen ilen alen cks X Y : Bytes} {items rest : List Item} {ops later : List Op}
      (source : SourceCode s.allowTarget dict prev ind seg src)
      (sofar : Program c library [] src.length items ops)
      (program : Program c library [] src.length (items ++ rest) (ops ++ later))
      (tight : Tight (items ++ rest) (ops ++ later))
      (exec : execOps src ops = src ++ X)
      (execLater : execOps (src ++ X) later = src ++ X ++ Y)
      (unfinished : Y ≠ [])
      (windowLimit : (X ++ Y).length ≤ s.maxWindow)
      (fileLimit : prev.length + (X ++ Y).length ≤ s.maxFile)
      (targetLength : NumCode tlen (X ++ Y).length)
      (deltaIndicator : di &&& 7 = 0)
      (dataLength : NumCode dlen 0)
      (instLength : NumCode ilen ((items ++ rest).flatMap Item.bytes).length)
      (addrLength : NumCode alen 0)
      (checksum : if ind &&& 4 ≠ 0 then IsVarint cks ∧ varintValue cks ≤ 0xFFFFFFFF else cks = [])
      (deltaLength : NumCode dl ((tlen ++ [di] ++ dlen ++ ilen ++ alen ++ cks).length +
        ((items ++ rest).flatMap Item.bytes).length))
      (copies : c.near ≤ 253 ∨ addrs (ops ++ later) = [])
      (caches : c.near + c.same ≤ 254) :
      WindowBegun c s dict prev
        ([ind] ++ seg ++ dl ++ (tlen ++ [di] ++ dlen ++ ilen ++ alen ++ cks) ++ items.flatMap Item.bytes) X

end Vcd.Spec
