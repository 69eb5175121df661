import Verif.Model.EncodeWork
import Verif.Proof.Work
import Verif.Proof.Varint

/-!
# The counting functions of `Model.EncodeWork` are those of the encoder
-/

namespace Vcd

namespace Timed

theorem after_val {α : Type} (n : Nat) (x : Timed α) : (after n x).map Prod.fst = x.map Prod.fst := by
  cases x <;> rfl

theorem andThen_val {α β : Type} {x : Timed α} {f : α → Timed β} {y : Except Fault α} {g : α → Except Fault β}
    (hx : x.map Prod.fst = y) (hf : ∀ a, (f a).map Prod.fst = g a) :
    (andThen x f).map Prod.fst = match y with | .error e => .error e | .ok a => g a := by
  subst hx
  rcases x with e | ⟨a, n⟩
  · rfl
  · simp only [andThen, after_val, hf]; rfl

theorem andThen_ok {α β : Type} {x : Timed α} {f : α → Timed β} {b : β} {n : Nat} (h : andThen x f = .ok (b, n)) :
    ∃ a n1 n2, x = .ok (a, n1) ∧ f a = .ok (b, n2) ∧ n = n1 + n2 := by
  rcases x with e | ⟨a, n1⟩
  · cases h
  · rcases hf : f a with e | ⟨b', n2⟩
    · simp only [andThen, hf] at h; cases h
    · simp only [andThen, hf] at h
      injection h with h
      injection h with h1 h2
      exact ⟨a, n1, n2, rfl, hf.trans (congrArg (fun x => Except.ok (x, n2)) h1), h2.symm⟩

theorem after_ok {α : Type} {n m : Nat} {x : Timed α} {a : α} (h : after n x = .ok (a, m)) : ∃ k, x = .ok (a, k) ∧ m = n + k := by
  rcases x with e | ⟨b, k⟩
  · cases h
  · injection h with h
    injection h with h1 h2
    exact ⟨k, congrArg (fun x => Except.ok (x, k)) h1, h2.symm⟩

theorem ok_inj {α : Type} {a b : α} {n m : Nat} (h : (.ok (a, n) : Timed α) = .ok (b, m)) : a = b ∧ n = m := by
  injection h with h; injection h with h1 h2; exact ⟨h1, h2⟩

end Timed

open Timed Spec

/-! ## Integers -/

theorem encodeVarintLoopW_val (fuel : Nat) : ∀ v acc, (encodeVarintLoopW fuel v acc).1 = encodeVarintLoop fuel v acc := by
  induction fuel with
  | zero => intro v acc; cases v <;> rfl
  | succ fuel ih =>
    intro v acc
    cases v with
    | zero => rfl
    | succ v => simp only [encodeVarintLoopW, encodeVarintLoop, ih]

theorem encodeVarintLoopW_steps (fuel : Nat) : ∀ v acc, (encodeVarintLoopW fuel v acc).2 ≤ fuel := by
  induction fuel with
  | zero => intro v acc; cases v <;> simp [encodeVarintLoopW]
  | succ fuel ih =>
    intro v acc
    cases v with
    | zero => simp [encodeVarintLoopW]
    | succ v => simp only [encodeVarintLoopW]; have := ih ((v + 1) >>> 7) (UInt8.ofNat (((v + 1) &&& 0x7F) ||| 0x80) :: acc); omega

theorem encodeVarintLoop_length (fuel : Nat) : ∀ v acc bs, encodeVarintLoop fuel v acc = some bs → bs.length ≤ acc.length + fuel := by
  induction fuel with
  | zero =>
    intro v acc bs h
    cases v with
    | zero => cases h; simp
    | succ v => cases h
  | succ fuel ih =>
    intro v acc bs h
    cases v with
    | zero => cases h; omega
    | succ v =>
      have := ih _ _ _ h
      simp only [List.length_cons] at this
      omega

theorem encodeVarintW_val (maxBytes : Nat) (v : Int) : (encodeVarintW maxBytes v).1 = encodeVarint maxBytes v := by
  unfold encodeVarintW encodeVarint
  split
  · rfl
  · simp only [encodeVarintLoopW_val]

theorem encodeVarint_length {maxBytes : Nat} (h0 : 0 < maxBytes) {v : Int} {bs : Bytes} (h : encodeVarint maxBytes v = some bs) :
    bs.length ≤ maxBytes := by
  unfold encodeVarint at h
  split at h
  · cases h; simp
  · have := encodeVarintLoop_length _ _ _ _ h
    simp only [List.length_cons, List.length_nil] at this
    omega

theorem encodeVarintLoop_lt (fuel : Nat) : ∀ v acc bs, encodeVarintLoop fuel v acc = some bs → v < 128 ^ fuel := by
  induction fuel with
  | zero =>
    intro v acc bs h
    cases v with
    | zero => decide
    | succ v => cases h
  | succ fuel ih =>
    intro v acc bs h
    cases v with
    | zero => exact Nat.pow_pos (by decide)
    | succ v =>
      have := ih _ _ _ h
      rw [Nat.shiftRight_eq_div_pow] at this
      rw [Nat.pow_succ]
      omega

theorem encodeVarint_lt {maxBytes : Nat} (h0 : 0 < maxBytes) {v : Int} {bs : Bytes} (h : encodeVarint maxBytes v = some bs) :
    v.toNat < 128 ^ maxBytes := by
  obtain ⟨k, rfl⟩ : ∃ k, maxBytes = k + 1 := ⟨maxBytes - 1, by omega⟩
  unfold encodeVarint at h
  split at h
  · rename_i hv
    rw [Int.toNat_of_nonpos (by omega)]; exact Nat.pow_pos (by decide)
  · have := encodeVarintLoop_lt _ _ _ _ h
    rw [Nat.add_sub_cancel, Nat.shiftRight_eq_div_pow] at this
    rw [Nat.pow_succ]
    omega

theorem encodeVarintW_steps {maxBytes : Nat} (h0 : 0 < maxBytes) (v : Int) : (encodeVarintW maxBytes v).2 ≤ 2 * maxBytes := by
  have hl : ((encodeVarintW maxBytes v).1.getD []).length ≤ maxBytes := by
    rw [encodeVarintW_val]
    cases h : encodeVarint maxBytes v with
    | none => simp
    | some bs => exact encodeVarint_length h0 h
  unfold encodeVarintW at hl ⊢
  split
  · simp
  · rename_i hv
    rw [if_neg hv] at hl
    simp only at hl ⊢
    have := encodeVarintLoopW_steps (maxBytes - 1) (v.toNat >>> 7) [UInt8.ofNat (v.toNat &&& 0x7F)]
    omega

theorem varintLengthLoopW_val (fuel : Nat) : ∀ v len, (varintLengthLoopW fuel v len).1 = varintLengthLoop fuel v len := by
  induction fuel with
  | zero => intro v len; rfl
  | succ fuel ih =>
    intro v len
    simp only [varintLengthLoopW, varintLengthLoop]
    split
    · rfl
    · simp only [ih]

theorem varintLengthLoopW_steps (fuel : Nat) : ∀ v len, len + (varintLengthLoopW fuel v len).2 = varintLengthLoop fuel v len := by
  induction fuel with
  | zero => intro v len; rfl
  | succ fuel ih =>
    intro v len
    simp only [varintLengthLoopW, varintLengthLoop]
    split
    · rfl
    · rw [← ih]; simp only; omega

theorem varintLengthW_val (v : Int) : (varintLengthW v).1 = varintLength v := by
  unfold varintLengthW varintLength
  split
  · rfl
  · exact varintLengthLoopW_val _ _ _

/-- Each iteration counts one. -/
theorem varintLengthW_steps (v : Int) : (varintLengthW v).2 = varintLength v := by
  unfold varintLengthW varintLength
  split
  · rfl
  · have := varintLengthLoopW_steps (v.toNat + 1) v.toNat 0
    omega

theorem varintLength_le {v : Int} {k : Nat} (h0 : 0 < k) (h : v.toNat < 128 ^ k) : varintLength v ≤ k := by
  unfold varintLength
  split
  · exact Nat.zero_le _
  · obtain ⟨j, e, j1, j2, j3, j4⟩ := varintLengthLoop_spec (v.toNat + 1) v.toNat 0 (by omega)
    rw [e, Nat.zero_add]
    by_cases hz : v.toNat = 0
    · rw [j4 hz]; exact h0
    · have := j3 hz
      have hlt : 128 ^ (j - 1) < 128 ^ k := Nat.lt_of_le_of_lt this h
      have := (Nat.pow_lt_pow_iff_right (by decide : 1 < 128)).1 hlt
      omega

/-! ## The address cache -/

namespace AddrCache

theorem initW_val (c : AddrCache) : c.initW.1 = c.init := by
  unfold initW init; split <;> rfl

theorem initW_steps (c : AddrCache) : c.initW.2 ≤ c.nearSize + c.sameSize * 256 := by
  unfold initW; split <;> simp

theorem init_sizes {c c' : AddrCache} (h : c.init = some c') : c'.nearSize = c.nearSize ∧ c'.sameSize = c.sameSize := by
  unfold init at h
  split at h
  · cases h
  · cases h; exact ⟨rfl, rfl⟩

theorem update_sizes {c c' : AddrCache} {a : Nat} (h : c.update a = some c') :
    c'.nearSize = c.nearSize ∧ c'.sameSize = c.sameSize := by
  unfold update at h
  simp only at h
  split at h
  · cases h
  · rename_i c1 h1
    have e1 : c1.nearSize = c.nearSize ∧ c1.sameSize = c.sameSize := by
      split at h1
      · split at h1
        · cases h1; exact ⟨rfl, rfl⟩
        · cases h1
      · cases h1; exact ⟨rfl, rfl⟩
    split at h
    · split at h
      · cases h; exact e1
      · cases h
    · cases h; exact e1

theorem encodeNearLoopW_val (a : Nat) (rest : List Nat) : ∀ i best, (encodeNearLoopW a i rest best).1 = encodeNearLoop a i rest best := by
  induction rest with
  | nil => intro i best; rfl
  | cons x rest ih =>
    intro i best
    simp only [encodeNearLoopW, encodeNearLoop]
    split <;> simp only [ih]

theorem encodeNearLoopW_steps (a : Nat) (rest : List Nat) : ∀ i best, (encodeNearLoopW a i rest best).2 = rest.length := by
  induction rest with
  | nil => intro i best; rfl
  | cons x rest ih =>
    intro i best
    simp only [encodeNearLoopW, List.length_cons]
    split <;> rw [ih] <;> omega

theorem encodeAddressW_val (c : AddrCache) (address here : Int) : (c.encodeAddressW address here).1 = c.encodeAddress address here := by
  unfold encodeAddressW encodeAddress
  split
  · rfl
  split
  · rfl
  have hrest : ∀ best : Nat × Nat, (if c.near.length < c.nearSize then ((.fault .cacheOob, 0) : EncodeResult × Nat)
      else match c.update address.toNat with
        | none => (.fault .cacheOob, (encodeNearLoopW address.toNat 0 (c.near.take c.nearSize) best).2)
        | some c' => (.ok (encodeNearLoopW address.toNat 0 (c.near.take c.nearSize) best).1.1
            (encodeNearLoopW address.toNat 0 (c.near.take c.nearSize) best).1.2 c',
            (encodeNearLoopW address.toNat 0 (c.near.take c.nearSize) best).2)).1 =
      (if c.near.length < c.nearSize then .fault .cacheOob
      else match c.update address.toNat with
        | none => .fault .cacheOob
        | some c' => .ok (encodeNearLoop address.toNat 0 (c.near.take c.nearSize) best).1
            (encodeNearLoop address.toNat 0 (c.near.take c.nearSize) best).2 c') := by
    intro best
    split
    · rfl
    · rw [encodeNearLoopW_val]
      cases c.update address.toNat <;> rfl
  simp only
  by_cases hs : c.sameSize > 0
  · rw [if_pos hs, if_pos hs]
    cases hg : c.same[address.toNat % (c.sameSize * 256)]? with
    | none => rfl
    | some s =>
      simp only
      by_cases he : s = address.toNat
      · rw [if_pos he, if_pos he]
        cases c.update address.toNat <;> rfl
      · rw [if_neg he, if_neg he]
        exact hrest _
  · rw [if_neg hs, if_neg hs]
    exact hrest _

theorem encodeAddressW_steps (c : AddrCache) (address here : Int) : (c.encodeAddressW address here).2 ≤ c.nearSize := by
  unfold encodeAddressW
  split
  · exact Nat.zero_le _
  split
  · exact Nat.zero_le _
  have hrest : ∀ best : Nat × Nat, (if c.near.length < c.nearSize then ((.fault .cacheOob, 0) : EncodeResult × Nat)
      else match c.update address.toNat with
        | none => (.fault .cacheOob, (encodeNearLoopW address.toNat 0 (c.near.take c.nearSize) best).2)
        | some c' => (.ok (encodeNearLoopW address.toNat 0 (c.near.take c.nearSize) best).1.1
            (encodeNearLoopW address.toNat 0 (c.near.take c.nearSize) best).1.2 c',
            (encodeNearLoopW address.toNat 0 (c.near.take c.nearSize) best).2)).2 ≤ c.nearSize := by
    intro best
    have hl : (encodeNearLoopW address.toNat 0 (c.near.take c.nearSize) best).2 ≤ c.nearSize := by
      rw [encodeNearLoopW_steps, List.length_take]; omega
    split
    · exact Nat.zero_le _
    · cases c.update address.toNat <;> exact hl
  simp only
  split
  · split
    · exact Nat.zero_le _
    · split
      · cases c.update address.toNat <;> exact Nat.zero_le _
      · exact hrest _
  · exact hrest _

theorem encodeAddress_sizes {c c' : AddrCache} {address here : Int} {mode enc : Nat} (h : c.encodeAddress address here = .ok mode enc c') :
    c'.nearSize = c.nearSize ∧ c'.sameSize = c.sameSize := by
  unfold encodeAddress at h
  split at h
  · cases h
  split at h
  · cases h
  have hrest : ∀ best : Nat × Nat, (if c.near.length < c.nearSize then EncodeResult.fault .cacheOob
      else match c.update address.toNat with
        | none => .fault .cacheOob
        | some c' => .ok (encodeNearLoop address.toNat 0 (c.near.take c.nearSize) best).1
            (encodeNearLoop address.toNat 0 (c.near.take c.nearSize) best).2 c') = .ok mode enc c' →
      c'.nearSize = c.nearSize ∧ c'.sameSize = c.sameSize := by
    intro best h
    split at h
    · cases h
    · cases hu : c.update address.toNat with
      | none => rw [hu] at h; cases h
      | some c1 => rw [hu] at h; cases h; exact update_sizes hu
  simp only at h
  split at h
  · split at h
    · cases h
    · split at h
      · cases hu : c.update address.toNat with
        | none => rw [hu] at h; cases h
        | some c1 => rw [hu] at h; cases h; exact update_sizes hu
      · exact hrest _ h
  · exact hrest _ h

theorem addressBytesW_val (c : AddrCache) (mode enc : Nat) : (c.addressBytesW mode enc).1 = c.addressBytes mode enc := by
  unfold addressBytesW addressBytes
  split
  · rfl
  · exact encodeVarintW_val _ _

theorem addressBytesW_steps (c : AddrCache) (mode enc : Nat) : (c.addressBytesW mode enc).2 ≤ 10 := by
  unfold addressBytesW
  split
  · simp
  · exact encodeVarintW_steps (by decide) _

theorem addressBytes_length {c : AddrCache} {mode enc : Nat} {bs : Bytes} (h : c.addressBytes mode enc = some bs) : bs.length ≤ 5 := by
  unfold addressBytes at h
  split at h
  · cases h; simp
  · exact encodeVarint_length (by decide) h

end AddrCache

/-! ## The code table writer -/

namespace Writer

theorem initW_val (w : Writer) (n : Nat) : (w.initW n).map Prod.fst = w.init n := by
  unfold initW init
  simp only
  have key : ∀ w? : Option Writer, (match w? with
      | none => (.error .oobRead : Timed (Bool × Writer))
      | some w =>
        match w.cache.initW with
        | (none, n) => .ok ((false, w), n)
        | (some cache, n) => .ok ((true, { w with cache, targetLength := 0, lastOpcode := none }), n)).map Prod.fst =
      match w? with
      | none => .error .oobRead
      | some w =>
        match w.cache.init with
        | none => .ok (false, w)
        | some cache => .ok (true, { w with cache, targetLength := 0, lastOpcode := none }) := by
    intro w?
    cases w? with
    | none => rfl
    | some w1 =>
      simp only
      rw [← AddrCache.initW_val]
      rcases w1.cache.initW with ⟨_ | _, _⟩ <;> rfl
  exact key _

theorem sizeBytesW_val (n : Nat) : (sizeBytesW n).map Prod.fst = sizeBytes n := by
  unfold sizeBytesW sizeBytes
  split
  · rfl
  · rw [← encodeVarintW_val]
    rcases encodeVarintW maxBytes32 (toInt32 n) with ⟨_ | _, _⟩ <;> rfl

theorem sizeBytesW_steps {n k : Nat} {bs : Bytes} (h : sizeBytesW n = .ok (bs, k)) : k ≤ 10 ∧ bs.length ≤ 5 := by
  unfold sizeBytesW at h
  split at h
  · cases h
  · have h1 := encodeVarintW_val maxBytes32 (toInt32 n)
    have h2 := encodeVarintW_steps (maxBytes := maxBytes32) (by decide) (toInt32 n)
    split at h
    · cases h
    · rename_i bs' k' he
      obtain ⟨rfl, rfl⟩ := ok_inj h
      rw [he] at h1 h2
      exact ⟨h2, encodeVarint_length (by decide) h1.symm⟩

theorem sizeOperandW_val (b : Bool) (n : Nat) : (sizeOperandW b n).map Prod.fst = sizeOperand b n := by
  unfold sizeOperandW sizeOperand
  split
  · exact sizeBytesW_val n
  · rfl

theorem sizeOperandW_steps {b : Bool} {n k : Nat} {bs : Bytes} (h : sizeOperandW b n = .ok (bs, k)) : k ≤ 10 ∧ bs.length ≤ 5 := by
  unfold sizeOperandW at h
  split at h
  · exact sizeBytesW_steps h
  · obtain ⟨rfl, rfl⟩ := ok_inj h
    simp

theorem sizeLengthW_val (n : Nat) : (sizeLengthW n).1 = sizeLength n := varintLengthW_val _

theorem sizeLengthW_steps (n : Nat) : (sizeLengthW n).2 ≤ 5 := by
  unfold sizeLengthW
  rw [varintLengthW_steps]
  refine varintLength_le (by decide) ?_
  have : (toInt32 n).toNat < 2 ^ 31 := by
    unfold toInt32
    split <;> omega
  omega

theorem encodeInstructionW_val (w : Writer) (inst : UInt8) (size mode : Nat) :
    (w.encodeInstructionW inst size mode).map Prod.fst = w.encodeInstruction inst size mode := by
  unfold encodeInstructionW encodeInstruction
  cases w.map with
  | none => rfl
  | some m =>
    simp only
    rcases w.compound m inst size mode with f | _ | ⟨i, op, b⟩
    · rfl
    · simp only
      rcases lookupFirst m inst size mode with f | ⟨op, b⟩
      · rfl
      · simp only
        rw [← sizeOperandW_val]
        rcases sizeOperandW b size with f | ⟨bs, k⟩ <;> rfl
    · simp only
      rw [← sizeOperandW_val]
      rcases sizeOperandW b size with f | ⟨bs, k⟩ <;> rfl

/-- What is in the three sections. -/
def held (w : Writer) : Nat := w.inst.length + w.data.length + w.addr.length

theorem encodeInstructionW_steps {w w' : Writer} {inst : UInt8} {size mode k : Nat}
    (h : w.encodeInstructionW inst size mode = .ok (w', k)) :
    k ≤ 11 ∧ w'.held ≤ w.held + 6 ∧ w'.cache = w.cache ∧ w'.map = w.map ∧ w'.checksum = w.checksum := by
  unfold encodeInstructionW at h
  split at h
  · cases h
  · split at h
    · cases h
    · obtain ⟨bs, n1, n2, h1, h2, rfl⟩ := andThen_ok h
      obtain ⟨rfl, rfl⟩ := ok_inj h2
      obtain ⟨k1, k2⟩ := sizeOperandW_steps h1
      refine ⟨by omega, ?_, rfl, rfl, rfl⟩
      simp only [held, List.length_append, List.length_set]
      omega
    · split at h
      · cases h
      · obtain ⟨bs, n1, n2, h1, h2, rfl⟩ := andThen_ok h
        obtain ⟨rfl, rfl⟩ := ok_inj h2
        obtain ⟨k1, k2⟩ := sizeOperandW_steps h1
        refine ⟨by omega, ?_, rfl, rfl, rfl⟩
        simp only [held, List.length_append, List.length_cons, List.length_nil]
        omega

theorem held_appendData (w : Writer) (bs : Bytes) : (w.appendData bs).held = w.held + bs.length := by
  unfold appendData
  split <;> simp only [held, List.length_append] <;> omega

theorem held_appendAddr (w : Writer) (bs : Bytes) : (w.appendAddr bs).held = w.held + bs.length := by
  unfold appendAddr
  split <;> simp only [held, List.length_append] <;> omega

theorem appendData_rest (w : Writer) (bs : Bytes) :
    (w.appendData bs).cache = w.cache ∧ (w.appendData bs).map = w.map ∧ (w.appendData bs).checksum = w.checksum := by
  unfold appendData; split <;> exact ⟨rfl, rfl, rfl⟩

theorem appendAddr_rest (w : Writer) (bs : Bytes) :
    (w.appendAddr bs).cache = w.cache ∧ (w.appendAddr bs).map = w.map ∧ (w.appendAddr bs).checksum = w.checksum := by
  unfold appendAddr; split <;> exact ⟨rfl, rfl, rfl⟩

theorem addW_val (w : Writer) (bs : Bytes) : (w.addW bs).map Prod.fst = w.add bs := by
  unfold addW add
  rw [← encodeInstructionW_val]
  rcases w.encodeInstructionW vcdAdd bs.length 0 with f | ⟨w1, k⟩ <;> rfl

theorem runW_val (w : Writer) (size : Nat) (b : UInt8) : (w.runW size b).map Prod.fst = w.run size b := by
  unfold runW run
  rw [← encodeInstructionW_val]
  rcases w.encodeInstructionW vcdRun size 0 with f | ⟨w1, k⟩ <;> rfl

theorem copyW_val (w : Writer) (offset : Int) (size : Nat) : (w.copyW offset size).map Prod.fst = w.copy offset size := by
  unfold copyW copy
  cases w.map with
  | none => rfl
  | some m =>
    simp only
    rw [← AddrCache.encodeAddressW_val]
    rcases w.cache.encodeAddressW offset (toInt32 (w.dictionarySize + w.targetLength)) with ⟨r, n⟩
    cases r with
    | fault f => rfl
    | ok mode enc cache =>
      simp only
      rw [after_val, ← encodeInstructionW_val]
      generalize encodeInstructionW _ vcdCopy size mode = t
      rcases t with f | ⟨w1, k⟩
      · rfl
      · simp only [andThen, Except.map]
        rw [← AddrCache.addressBytesW_val]
        rcases w1.cache.addressBytesW mode enc with ⟨_ | bs, n⟩ <;> rfl

theorem checksumLengthW_val (c : Option Nat) : (checksumLengthW c).1 = checksumLength c := by
  cases c with
  | none => rfl
  | some c => exact varintLengthW_val _

theorem deltaLengthW_val (w : Writer) : w.deltaLengthW.1 = w.deltaLength := by
  simp only [deltaLengthW, deltaLength, sizeLengthW_val, checksumLengthW_val]

theorem checksumBytesW_val (c : Option Nat) : (checksumBytesW c).map Prod.fst = checksumBytes c := by
  cases c with
  | none => rfl
  | some c =>
    simp only [checksumBytesW, checksumBytes]
    rw [← encodeVarintW_val]
    rcases encodeVarintW maxBytes64 c with ⟨_ | _, _⟩ <;> rfl

theorem deltaBytesW_val (w : Writer) : w.deltaBytesW.map Prod.fst = w.deltaBytes := by
  unfold deltaBytesW deltaBytes
  simp only [← sizeBytesW_val, ← checksumBytesW_val]
  rcases sizeBytesW w.targetLength with f | ⟨a, n⟩
  · rfl
  rcases sizeBytesW w.data.length with f | ⟨a, n⟩
  · rfl
  rcases sizeBytesW w.inst.length with f | ⟨a, n⟩
  · rfl
  rcases sizeBytesW w.addr.length with f | ⟨a, n⟩
  · rfl
  rcases checksumBytesW w.checksum with f | ⟨a, n⟩
  · rfl
  · rfl

theorem windowBytesW_val (w : Writer) : w.windowBytesW.map Prod.fst = w.windowBytes := by
  unfold windowBytesW windowBytes
  simp only [← sizeBytesW_val, ← deltaBytesW_val, ← deltaLengthW_val]
  rcases sizeBytesW w.dictionarySize with f | ⟨a, n⟩
  · rfl
  rcases sizeBytesW 0 with f | ⟨a, n⟩
  · rfl
  rcases sizeBytesW w.deltaLengthW.1 with f | ⟨a, n⟩
  · rfl
  rcases w.deltaBytesW with f | ⟨a, n⟩
  · rfl
  · simp only [andThen, bind, Except.bind]
    by_cases h : w.deltaLengthW.1 ≠ List.length a
    · rw [if_pos h]; simp only [Except.map]; rw [if_pos h]; rfl
    · rw [if_neg h]; simp only [Except.map]; rw [if_neg h]; rfl

theorem outputW_val (w : Writer) : w.outputW.map Prod.fst = w.output := by
  unfold outputW output
  have h1 : (if w.inst = [] then (.ok ([], 0) : Timed Bytes) else w.windowBytesW).map Prod.fst =
      if w.inst = [] then .ok [] else w.windowBytes := by
    split
    · rfl
    · exact windowBytesW_val w
  rw [← h1]
  rcases (if w.inst = [] then (.ok ([], 0) : Timed Bytes) else w.windowBytesW) with f | ⟨out, n⟩
  · rfl
  · simp only [andThen, Except.map]
    rw [← initW_val]
    rcases (if w.inst = [] then w else { w with data := [], inst := [], addr := [] }).initW w.dictionarySize with f | ⟨⟨_ | _, w1⟩, k⟩
    · rfl
    · rfl
    · rfl

theorem addW_steps {w w' : Writer} {bs : Bytes} {k : Nat} (h : w.addW bs = .ok (w', k)) :
    k ≤ 11 + bs.length ∧ w'.held ≤ w.held + 6 + bs.length ∧ w'.cache = w.cache := by
  unfold addW at h
  obtain ⟨w1, n1, n2, h1, h2, rfl⟩ := andThen_ok h
  obtain ⟨rfl, rfl⟩ := ok_inj h2
  obtain ⟨k1, k2, k3, _⟩ := encodeInstructionW_steps h1
  have := held_appendData w1 bs
  exact ⟨by omega, by simp only [advance, held] at this k2 ⊢; omega, by rw [← k3]; exact (appendData_rest w1 bs).1⟩

theorem runW_steps {w w' : Writer} {size k : Nat} {b : UInt8} (h : w.runW size b = .ok (w', k)) :
    k ≤ 12 ∧ w'.held ≤ w.held + 7 ∧ w'.cache = w.cache := by
  unfold runW at h
  obtain ⟨w1, n1, n2, h1, h2, rfl⟩ := andThen_ok h
  obtain ⟨rfl, rfl⟩ := ok_inj h2
  obtain ⟨k1, k2, k3, _⟩ := encodeInstructionW_steps h1
  have := held_appendData w1 [b]
  exact ⟨by omega, by simp only [advance, held, List.length_cons, List.length_nil] at this k2 ⊢; omega, by rw [← k3]; exact (appendData_rest w1 [b]).1⟩

theorem copyW_steps {w w' : Writer} {offset : Int} {size k : Nat} (h : w.copyW offset size = .ok (w', k)) :
    k ≤ 21 + w.cache.nearSize ∧ w'.held ≤ w.held + 11 ∧
      w'.cache.nearSize = w.cache.nearSize ∧ w'.cache.sameSize = w.cache.sameSize := by
  unfold copyW at h
  split at h
  · cases h
  have hv := AddrCache.encodeAddressW_val w.cache offset (toInt32 (w.dictionarySize + w.targetLength))
  have hs := AddrCache.encodeAddressW_steps w.cache offset (toInt32 (w.dictionarySize + w.targetLength))
  split at h
  · cases h
  · rename_i mode enc cache n he
    rw [he] at hv hs
    obtain ⟨k1, q0, rfl⟩ := after_ok h
    obtain ⟨w1, n1, n2, h1, h2, rfl⟩ := andThen_ok q0
    obtain ⟨j1, j2, j3, _⟩ := encodeInstructionW_steps h1
    obtain ⟨c1, c2⟩ := AddrCache.encodeAddress_sizes hv.symm
    have a1 := AddrCache.addressBytesW_val w1.cache mode enc
    have a2 := AddrCache.addressBytesW_steps w1.cache mode enc
    split at h2
    · cases h2
    · rename_i bytes n3 he3
      obtain ⟨rfl, rfl⟩ := ok_inj h2
      rw [he3] at a1 a2
      have a3 := AddrCache.addressBytes_length a1.symm
      have a4 := held_appendAddr w1 bytes
      have a5 := (appendAddr_rest w1 bytes).1
      simp only at hs a2
      refine ⟨by omega, ?_, ?_, ?_⟩
      · simp only [advance, held] at a4 j2 ⊢; omega
      · simp only [advance, a5, j3, c1]
      · simp only [advance, a5, j3, c2]

theorem checksumBytesW_steps {c : Option Nat} {bs : Bytes} {k : Nat} (h : checksumBytesW c = .ok (bs, k)) :
    k ≤ 18 ∧ (checksumLengthW c).2 ≤ 9 := by
  cases c with
  | none => obtain ⟨_, rfl⟩ := ok_inj h; exact ⟨by omega, by simp [checksumLengthW]⟩
  | some c =>
    simp only [checksumBytesW] at h
    have h1 := encodeVarintW_val maxBytes64 c
    have h2 := encodeVarintW_steps (maxBytes := maxBytes64) (by decide) c
    split at h
    · cases h
    · rename_i bs' k' he
      obtain ⟨rfl, rfl⟩ := ok_inj h
      rw [he] at h1 h2
      refine ⟨h2, ?_⟩
      have hc : c < 128 ^ maxBytes64 := by
        refine Nat.lt_of_not_le fun hge => ?_
        have := encodeVarint_lt (by decide) h1.symm
        simp only [Int.toNat_natCast] at this
        omega
      simp only [checksumLengthW, varintLengthW_steps]
      exact varintLength_le (k := maxBytes64) (by decide) (by rw [Int.toNat_natCast]; exact hc)

theorem windowBytesW_steps {w : Writer} {out : Bytes} {k : Nat} (h : w.windowBytesW = .ok (out, k)) : k ≤ 119 + w.held := by
  unfold windowBytesW at h
  obtain ⟨_, n1, _, h1, q1, rfl⟩ := andThen_ok h
  obtain ⟨_, n2, _, h2, q2, rfl⟩ := andThen_ok q1
  obtain ⟨_, q3, rfl⟩ := after_ok q2
  obtain ⟨_, n3, _, h3, q4, rfl⟩ := andThen_ok q3
  obtain ⟨_, n4, _, h4, q5, rfl⟩ := andThen_ok q4
  split at q5
  · cases q5
  obtain ⟨rfl, rfl⟩ := ok_inj q5
  unfold deltaBytesW at h4
  obtain ⟨_, m1, _, g1, q6, rfl⟩ := andThen_ok h4
  obtain ⟨_, m2, _, g2, q7, rfl⟩ := andThen_ok q6
  obtain ⟨_, m3, _, g3, q8, rfl⟩ := andThen_ok q7
  obtain ⟨_, m4, _, g4, q9, rfl⟩ := andThen_ok q8
  obtain ⟨_, m5, _, g5, q10, rfl⟩ := andThen_ok q9
  obtain ⟨_, rfl⟩ := ok_inj q10
  have := (sizeBytesW_steps h1).1
  have := (sizeBytesW_steps h2).1
  have := (sizeBytesW_steps h3).1
  have := (sizeBytesW_steps g1).1
  have := (sizeBytesW_steps g2).1
  have := (sizeBytesW_steps g3).1
  have := (sizeBytesW_steps g4).1
  have := checksumBytesW_steps g5
  have := sizeLengthW_steps w.targetLength
  have := sizeLengthW_steps w.data.length
  have := sizeLengthW_steps w.inst.length
  have := sizeLengthW_steps w.addr.length
  simp only [deltaLengthW, held]
  omega

theorem initW_steps {w w' : Writer} {n k : Nat} {b : Bool} (h : w.initW n = .ok ((b, w'), k)) :
    k ≤ w.cache.nearSize + w.cache.sameSize * 256 := by
  unfold initW at h
  simp only at h
  have key : ∀ w? : Option Writer, (∀ w1, w? = some w1 → w1.cache = w.cache) → (match w? with
      | none => (.error .oobRead : Timed (Bool × Writer))
      | some w =>
        match w.cache.initW with
        | (none, n) => .ok ((false, w), n)
        | (some cache, n) => .ok ((true, { w with cache, targetLength := 0, lastOpcode := none }), n)) = .ok ((b, w'), k) →
      k ≤ w.cache.nearSize + w.cache.sameSize * 256 := by
    intro w? hw h
    cases w? with
    | none => cases h
    | some w1 =>
      have := AddrCache.initW_steps w.cache
      simp only [hw w1 rfl] at h
      split at h <;> rename_i he <;> rw [he] at this <;> obtain ⟨_, rfl⟩ := ok_inj h <;> exact this
  refine key _ ?_ h
  intro w1 h1
  split at h1
  · cases h1; rfl
  · cases hb : InstructionMap.build w.table w.maxMode with
    | none => rw [hb] at h1; cases h1
    | some m => rw [hb] at h1; cases h1; rfl

theorem outputW_steps {w w' : Writer} {out : Bytes} {k : Nat} (h : w.outputW = .ok ((out, w'), k)) :
    k ≤ 119 + w.held + w.cache.nearSize + w.cache.sameSize * 256 := by
  unfold outputW at h
  obtain ⟨_, n1, _, h1, q11, rfl⟩ := andThen_ok h
  obtain ⟨⟨b, w1⟩, n2, _, h2, q12, rfl⟩ := andThen_ok q11
  have hn1 : n1 ≤ 119 + w.held := by
    split at h1
    · obtain ⟨_, rfl⟩ := ok_inj h1; omega
    · exact windowBytesW_steps h1
  have hn2 := initW_steps h2
  have hc : (if w.inst = [] then w else { w with data := [], inst := [], addr := [] }).cache = w.cache := by split <;> rfl
  rw [hc] at hn2
  cases b with
  | false => cases q12
  | true => obtain ⟨_, rfl⟩ := ok_inj q12; omega

/-- The calls for a window. -/
theorem callsW_steps (ops : List Spec.Op) : ∀ {w : Writer} {r : Bytes × Writer} {k : Nat}, w.cache.nearSize = 4 → w.cache.sameSize = 3 →
    w.callsW (ops.map Op.call ++ [.output]) = .ok (r, k) → k ≤ 36 * ops.length + 2 * Spec.sizes ops + w.held + 891 := by
  induction ops with
  | nil =>
    intro w r k hn hs h
    simp only [List.map_nil, List.nil_append, callsW] at h
    obtain ⟨⟨out, w1⟩, n1, _, h1, q13, rfl⟩ := andThen_ok h
    obtain ⟨_, n2, _, h2, q14, rfl⟩ := andThen_ok q13
    obtain ⟨_, rfl⟩ := ok_inj q14
    obtain ⟨_, rfl⟩ := ok_inj h2
    have := outputW_steps h1
    rw [hn, hs] at this
    simp only [Spec.sizes, List.map_nil, List.sum_nil, List.length_nil]
    omega
  | cons o ops ih =>
    intro w r k hn hs h
    simp only [List.map_cons, List.cons_append, callsW] at h
    obtain ⟨⟨out, w1⟩, n1, _, h1, q15, rfl⟩ := andThen_ok h
    obtain ⟨_, n2, _, h2, q16, rfl⟩ := andThen_ok q15
    obtain ⟨_, rfl⟩ := ok_inj q16
    have key : n1 ≤ 25 + o.size ∧ w1.held ≤ w.held + 11 + o.size ∧ w1.cache.nearSize = w.cache.nearSize ∧
        w1.cache.sameSize = w.cache.sameSize := by
      cases o with
      | add bs =>
        obtain ⟨w2, m1, _, g1, q17, rfl⟩ := andThen_ok h1
        obtain ⟨e, rfl⟩ := ok_inj q17
        cases e
        obtain ⟨q1, q2, q3⟩ := addW_steps g1
        simp only [Spec.Op.size]
        exact ⟨by omega, by omega, by rw [q3], by rw [q3]⟩
      | run b n =>
        obtain ⟨w2, m1, _, g1, q18, rfl⟩ := andThen_ok h1
        obtain ⟨e, rfl⟩ := ok_inj q18
        cases e
        obtain ⟨q1, q2, q3⟩ := runW_steps g1
        exact ⟨by omega, by omega, by rw [q3], by rw [q3]⟩
      | copy a n =>
        obtain ⟨w2, m1, _, g1, q19, rfl⟩ := andThen_ok h1
        obtain ⟨e, rfl⟩ := ok_inj q19
        cases e
        obtain ⟨q1, q2, q3, q4⟩ := copyW_steps g1
        rw [hn] at q1
        exact ⟨by omega, by omega, q3, q4⟩
    have := ih (by rw [key.2.2.1, hn]) (by rw [key.2.2.2, hs]) h2
    simp only [Spec.sizes, List.map_cons, List.sum_cons, List.length_cons] at this ⊢
    omega

theorem callW_val (w : Writer) (c : CoderCall) : (w.callW c).map Prod.fst = w.call c := by
  cases c with
  | add bs =>
    simp only [callW, call]; rw [← addW_val]
    rcases w.addW bs with f | ⟨w1, k⟩ <;> rfl
  | copy o n =>
    simp only [callW, call]; rw [← copyW_val]
    rcases w.copyW o n with f | ⟨w1, k⟩ <;> rfl
  | run n b =>
    simp only [callW, call]; rw [← runW_val]
    rcases w.runW n b with f | ⟨w1, k⟩ <;> rfl
  | output => exact outputW_val w

theorem callsW_val (cs : List CoderCall) : ∀ w : Writer, (w.callsW cs).map Prod.fst = w.calls cs := by
  induction cs with
  | nil => intro w; rfl
  | cons c cs ih =>
    intro w
    simp only [callsW, calls]
    rw [← callW_val]
    rcases w.callW c with f | ⟨⟨out, w1⟩, k⟩
    · rfl
    · simp only [andThen, Except.map]
      have := ih w1
      rcases hc : w1.callsW cs with f | ⟨⟨out', w2⟩, k'⟩
      · rw [hc] at this; rw [← this]; rfl
      · rw [hc] at this; rw [← this]; rfl

end Writer

/-! ## The JSON writer -/

namespace JsonWriter

theorem escapeW_val (d : Bytes) : (escapeW d).1 = escape d := by
  induction d with
  | nil => rfl
  | cons c d ih => simp only [escapeW, ih, escape, List.flatMap_cons]

theorem decimalLoopW_val (fuel : Nat) : ∀ n acc, (decimalLoopW fuel n acc).1 = decimalLoop fuel n acc := by
  induction fuel with
  | zero => intro n acc; rfl
  | succ fuel ih =>
    intro n acc
    simp only [decimalLoopW, decimalLoop]
    split
    · rfl
    · simp only [ih]

theorem decimalW_val (n : Nat) : (decimalW n).1 = decimal n := decimalLoopW_val _ _ _

theorem decimalIntW_val (n : Int) : (decimalIntW n).1 = decimalInt n := by
  unfold decimalIntW decimalInt
  split
  · simp only [decimalW_val]
  · exact decimalW_val _

theorem callW_val (w : JsonWriter) (c : CoderCall) : (w.callW c).1 = w.call c := by
  cases c with
  | add bs => simp only [callW, call, pushW, escapeW_val, add]
  | copy o n => simp only [callW, call, pushW, decimalIntW_val, decimalW_val, copy]
  | run n b => rfl
  | output => rfl

theorem callsW_val (cs : List CoderCall) : ∀ w : JsonWriter, (w.callsW cs).1 = w.calls cs := by
  induction cs with
  | nil => intro w; rfl
  | cons c cs ih => intro w; simp only [callsW, calls, ih, callW_val]

theorem decimalLoopW_steps (fuel : Nat) : ∀ {n k : Nat} (acc : Bytes), 0 < k → n < 10 ^ k →
    (decimalLoopW fuel n acc).2 ≤ k ∧ (decimalLoopW fuel n acc).1.length ≤ acc.length + k := by
  induction fuel with
  | zero => intro n k acc h0 h; simp [decimalLoopW]
  | succ fuel ih =>
    intro n k acc h0 h
    simp only [decimalLoopW]
    split
    · simp only [List.length_cons]; omega
    · rename_i hd
      have hk : 1 < k := by
        refine Nat.lt_of_not_le fun hk => hd ?_
        have : k = 1 := by omega
        subst this
        omega
      obtain ⟨j, rfl⟩ : ∃ j, k = j + 1 := ⟨k - 1, by omega⟩
      have := ih (n := n / 10) (k := j) (UInt8.ofNat (0x30 + n % 10) :: acc) (by omega) (by rw [Nat.pow_succ] at h; omega)
      simp only [List.length_cons] at this ⊢
      omega

theorem decimalW_steps {n : Nat} (h : n < 2 ^ 31) : (decimalW n).2 ≤ 10 ∧ (decimalW n).1.length ≤ 10 := by
  have := decimalLoopW_steps (n + 1) (n := n) (k := 10) [] (by decide) (by omega)
  simpa [decimalW] using this

theorem escapeByte_length (c : UInt8) : (escapeByte c).length ≤ 6 := by
  unfold escapeByte
  repeat' split
  all_goals simp

theorem escapeW_steps (d : Bytes) : (escapeW d).2 ≤ 7 * d.length ∧ (escapeW d).1.length ≤ 6 * d.length := by
  induction d with
  | nil => simp [escapeW]
  | cons c d ih =>
    have := escapeByte_length c
    simp only [escapeW, List.length_append, List.length_cons]
    omega

theorem push_length (w : JsonWriter) (bs : Bytes) : (w.push bs).output.length ≤ w.output.length + 1 + bs.length := by
  unfold push
  simp only [List.length_append]
  split <;> simp

/-- The calls for a chunk. -/
theorem callsW_steps (ops : List Spec.Op) : ∀ (w : JsonWriter),
    (∀ a n, Spec.Op.copy a n ∈ ops → a < 2 ^ 31 ∧ n < 2 ^ 31) →
    (w.callsW (ops.map Op.call ++ [.output])).2 ≤ 64 * ops.length + 19 * Spec.sizes ops + w.output.length ∧
      (w.callsW (ops.map Op.call ++ [.output])).1.2.output = [] := by
  induction ops with
  | nil =>
    intro w _
    simp [callsW, callW, flush, Spec.sizes]
  | cons o ops ih =>
    intro w hc
    have key : (w.callW (Op.call o)).2 ≤ 42 + 13 * o.size ∧
        (w.callW (Op.call o)).1.2.output.length ≤ w.output.length + 22 + 6 * o.size := by
      cases o with
      | add bs =>
        have h1 := escapeW_steps bs
        simp only [Op.call, callW, pushW]
        have h2 := push_length w ([0x22] ++ (escapeW bs).1 ++ [0x22])
        simp only [List.length_append, List.length_cons, List.length_nil, Spec.Op.size] at h2 ⊢
        omega
      | run b n =>
        simp only [Op.call, callW, pushW]
        have h2 := push_length w ([0x22] ++ List.replicate n b ++ [0x22])
        simp only [List.length_append, List.length_cons, List.length_nil, Spec.Op.size, List.length_replicate] at h2 ⊢
        omega
      | copy a n =>
        obtain ⟨ha, hn⟩ := hc a n (List.mem_cons_self ..)
        have h1 := decimalW_steps ha
        have h3 := decimalW_steps hn
        have he : decimalIntW (a : Int) = decimalW a := by
          unfold decimalIntW
          rw [if_neg (by omega)]
          rfl
        simp only [Op.call, callW, pushW, he]
        have h2 := push_length w ((decimalW a).1 ++ [0x2C] ++ (decimalW n).1)
        simp only [List.length_append, List.length_cons, List.length_nil] at h2 ⊢
        omega
    have := ih (w.callW (Op.call o)).1.2 (fun a n h => hc a n (List.mem_cons_of_mem _ h))
    simp only [List.map_cons, List.cons_append, callsW, Spec.sizes, List.sum_cons, List.length_cons] at this ⊢
    refine ⟨?_, this.2⟩
    omega

theorem isAsciiW_steps (d : Bytes) : (isAsciiW d).2 ≤ d.length := by
  induction d with
  | nil => simp [isAsciiW]
  | cons c d ih =>
    simp only [isAsciiW, List.length_cons]
    split
    · simp only; omega
    · simp only; omega

theorem isAsciiW_val (d : Bytes) : (isAsciiW d).1 = isAscii d := by
  induction d with
  | nil => rfl
  | cons c d ih =>
    simp only [isAsciiW]
    by_cases h : c < 128
    · rw [if_pos h]; simp only [ih, isAscii, List.all_cons, h, decide_true, Bool.true_and]
    · rw [if_neg h]; simp only [isAscii, List.all_cons, h, decide_false, Bool.false_and]

end JsonWriter

/-! ## The streaming encoder -/

theorem Encoder.chunkW_val (e : Encoder) (data : Bytes) : (e.chunkW data).map Prod.fst = e.chunk data := by
  unfold chunkW chunk
  split
  · rfl
  · have hv := Engine.encodeW_val e.engine e.lookForTargetMatches data
    cases e.coder with
    | binary w =>
      simp only [after_val]
      rw [← hv]
      rcases e.engine.encodeW e.lookForTargetMatches data with f | ⟨calls, work⟩
      · rfl
      · simp only [Except.map]
        generalize (if e.flags &&& 2 ≠ 0 then w.addChecksum (computeAdler32 data) else w) = w1
        have := Writer.callsW_val calls w1
        simp only [Counted.val, Except.map]
        rw [← this]
        rcases w1.callsW calls with f | ⟨⟨out, w2⟩, k⟩ <;> rfl
    | json w =>
      simp only [JsonWriter.isAsciiW_val]
      split
      · rfl
      · rw [← hv]
        rcases e.engine.encodeW e.lookForTargetMatches data with f | ⟨calls, work⟩
        · rfl
        · simp only [Except.map, JsonWriter.callsW_val, Counted.val]

end Vcd
