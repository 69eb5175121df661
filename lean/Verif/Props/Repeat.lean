import Verif.Spec.Repeat
import Verif.Props.Edit
import Verif.Proof.Damage
import Verif.Proof.Eager

/-!
# C84: data that repeat themselves give short deltas
-/

namespace Vcd
open Spec

theorem take_eq_of_get {a b : Bytes} {i j n : Nat}
    (h : ∀ k < n, a[i + k]? = b[j + k]?) : (a.drop i).take n = (b.drop j).take n := by
  apply List.ext_getElem?
  intro k
  by_cases hk : k < n
  · simp only [List.getElem?_take, if_pos hk, List.getElem?_drop]
    exact h k hk
  · simp [List.getElem?_take, hk]

/-- Equal 32 bytes are followed by equal bytes. -/
def GoesOn (data : Bytes) : Prop := ∀ i j, i < j → j + 32 < data.length →
  (∀ k < 32, data[i + k]? = data[j + k]?) → data[i + 32]? = data[j + 32]?

theorem Spec.Repeats.multiple {p : Nat} {data : Bytes} (h : Repeats p data) (m i : Nat) (hi : i + m * p < data.length) :
    data[i + m * p]? = data[i]? := by
  induction m with
  | zero => simp
  | succ m ih =>
    have e : i + (m + 1) * p = i + m * p + p := by rw [Nat.add_mul]; omega
    rw [e] at hi ⊢
    rw [h _ hi, ih (by omega)]

theorem Spec.Repeats.goesOn {p : Nat} {data : Bytes} (h : Repeats p data) (hp : 0 < p) (hp2 : p ≤ 32) : GoesOn data := by
  intro i j hij hj he
  have e1 : data[i + 32]? = data[i + (32 - p)]? := by
    have := h (i + (32 - p)) (by omega)
    rwa [show i + (32 - p) + p = i + 32 by omega] at this
  have e2 : data[j + 32]? = data[j + (32 - p)]? := by
    have := h (j + (32 - p)) (by omega)
    rwa [show j + (32 - p) + p = j + 32 by omega] at this
  rw [e1, e2]
  exact he _ (by omega)

theorem Spec.Repeats.goesOnOnly {p : Nat} {data : Bytes} (h : Repeats p data)
    (honly : ∀ i j, i < j → j + 32 ≤ data.length → (data.drop i).take 32 = (data.drop j).take 32 → p ∣ j - i) : GoesOn data := by
  intro i j hij hj he
  obtain ⟨m, hm⟩ := honly i j hij (by omega) (take_eq_of_get he)
  have := h.multiple m (i + 32) (by rw [Nat.mul_comm]; omega)
  rw [← this]
  congr 1
  rw [Nat.mul_comm m p]
  omega

/-- With equal 32 bytes at two places everything after them is equal. -/
theorem GoesOn.all {data : Bytes} (h : GoesOn data) {i j : Nat} (hij : i < j) (n : Nat) (hn : 32 ≤ n) (hj : j + n < data.length)
    (he : ∀ k < n, data[i + k]? = data[j + k]?) : data[i + n]? = data[j + n]? := by
  have := h (i + (n - 32)) (j + (n - 32)) (by omega) (by omega) (by
    intro k hk
    have := he (n - 32 + k) (by omega)
    rwa [← Nat.add_assoc, ← Nat.add_assoc] at this)
  rwa [show i + (n - 32) + 32 = i + n by omega, show j + (n - 32) + 32 = j + n by omega] at this

theorem Engine.Whole.repeats {dict chunk : Bytes} {ops : List Op} (h : Engine.Whole dict chunk true ops) {p : Nat} (hp : 0 < p)
    (hrep : Repeats p chunk) (hf : GoesOn chunk) (hlen : p + 32 ≤ chunk.length) (hd : NothingShared dict chunk) :
    ∃ m a, 0 < m ∧ m ≤ p ∧ dict.length ≤ a ∧ ops = [.add (chunk.take m), .copy a (chunk.length - m)] := by
  have hsz : sizes ops = chunk.length := exec_sizes h.exec
  -- no COPY is from the dictionary
  have hcopy : ∀ pre a n post, ops = pre ++ .copy a n :: post → dict.length ≤ a ∧ sizes pre + n = chunk.length := by
    intro pre a n post e
    have c := h.copies pre a n post e
    have hin := c.inTarget
    have h32 := c.size
    have hbelow := c.below
    rcases c.inDict with hdict | ⟨_, ha⟩
    · exfalso
      refine hd a (sizes pre) (by omega) (by omega) (take_eq_of_get fun k hk => ?_)
      have := c.equal k (by omega)
      rwa [List.getElem?_append_left (by omega), List.getElem?_append_right (by omega),
        show dict.length + sizes pre + k - dict.length = sizes pre + k by omega] at this
    · refine ⟨ha, ?_⟩
      obtain ⟨s, rfl⟩ := Nat.exists_eq_add_of_le ha
      have eqn : ∀ k, (dict ++ chunk)[dict.length + s + k]? = chunk[s + k]? := by
        intro k
        rw [List.getElem?_append_right (by omega)]
        congr 1; omega
      have eqn2 : ∀ k, (dict ++ chunk)[dict.length + sizes pre + k]? = chunk[sizes pre + k]? := by
        intro k
        rw [List.getElem?_append_right (by omega)]
        congr 1; omega
      rcases c.right with hr | hr | hr
      · omega
      · exact hr
      · by_cases hend : sizes pre + n = chunk.length
        · exact hend
        · exfalso
          apply hr
          rw [eqn, eqn2]
          refine hf.all (by omega) n h32 (by omega) fun k hk => ?_
          have := c.equal k hk
          rwa [eqn, eqn2] at this
  cases ops with
  | nil => simp [sizes] at hsz; omega
  | cons o rest =>
    cases o with
    | run b n => exact absurd (h.emittable [] _ rest rfl) (by simp [Emittable])
    | copy a n =>
      have c := h.copies [] a n rest rfl
      have := (hcopy [] a n rest rfl).1
      have hb := c.below
      simp [sizes] at hb
      omega
    | add lit =>
      have hne : lit ≠ [] := h.emittable [] _ rest rfl
      have hpos : 0 < lit.length := List.length_pos_iff.2 hne
      -- the ADD ends where the pattern begins again
      have hm : lit.length ≤ p := by
        by_cases hm : lit.length ≤ p
        · exact hm
        · exfalso
          have hlit : (0, lit.length) ∈ Engine.literals 0 (Op.add lit :: rest) := by
            have := Engine.literals_mem 0 [] lit rest
            simpa [sizes] using this
          have := (h.noMiss (0, lit.length) hlit p (by simp) (by simp only; omega) (by simp only [kBlockSize]; omega)).2 rfl
          have eqb : (chunk.drop p).take 16 = block chunk 0 := by
            refine take_eq_of_get fun k hk => ?_
            have := hrep k (by omega)
            rw [Nat.add_comm p k, this]; simp
          have hlt := this 0 0 p (chunk.length - p) (by omega) (by
            right
            have hmem : 0 ∈ sharing chunk ((p + 15) / 16) ((chunk.drop p).take 16) := by
              rw [eqb]
              unfold sharing
              rw [List.mem_filter]
              exact ⟨List.mem_range.2 (by omega), by simp⟩
            cases hs : sharing chunk ((p + 15) / 16) ((chunk.drop p).take 16) with
            | nil => rw [hs] at hmem; cases hmem
            | cons x xs =>
              have hx : x = 0 := by
                rw [hs] at hmem
                rcases List.mem_cons.1 hmem with h0 | h0
                · exact h0.symm
                · have hsorted : (sharing chunk ((p + 15) / 16) ((chunk.drop p).take 16)).Pairwise (· < ·) :=
                    List.Pairwise.filter _ List.pairwise_lt_range
                  rw [hs, List.pairwise_cons] at hsorted
                  have := hsorted.1 0 h0
                  omega
              subst hx
              exact ⟨[], xs, rfl, by simp, by simp⟩) (by omega) (by omega)
            ⟨by omega, by omega, Nat.le_refl _, by omega, take_eq_of_get fun k hk => by
              have := hrep k (by omega)
              rw [Nat.add_comm p k, this]; simp⟩
          omega
      cases rest with
      | nil => simp [sizes, Op.size] at hsz; omega
      | cons o2 rest =>
        obtain ⟨a, n, rfl⟩ := h.noAddAdd [] lit o2 rest rfl
        obtain ⟨k1, k2⟩ := hcopy [.add lit] a n rest rfl
        have hrest : rest = [] := by
          cases rest with
          | nil => rfl
          | cons o3 rest =>
            exfalso
            have he := h.emittable [.add lit, .copy a n] o3 rest rfl
            have : 0 < o3.size := by
              cases o3 with
              | add b => exact List.length_pos_iff.2 he
              | run => exact he.elim
              | copy a n => have := he.1; simp only [Op.size]; omega
            have e1 : sizes (Op.add lit :: Op.copy a n :: o3 :: rest) = lit.length + (n + (o3.size + sizes rest)) := by
              simp only [sizes, List.map_cons, List.sum_cons, show (Op.add lit).size = lit.length from rfl,
                show (Op.copy a n).size = n from rfl]
            have e2 : sizes [Op.add lit] = lit.length := by simp [sizes, Op.size]
            omega
        subst hrest
        have hlit : lit = chunk.take lit.length := by
          have e := h.exec
          have hpre : execOps dict [.add lit] <+: execOps dict ([.add lit] ++ [.copy a n]) := by
            rw [execOps_append]; exact execOps_prefix _ _
          have e' : execOps dict ([.add lit] ++ [.copy a n]) = dict ++ chunk := e
          rw [e'] at hpre
          have : execOps dict [.add lit] = dict ++ lit := rfl
          rw [this, List.prefix_append_right_inj] at hpre
          exact List.prefix_iff_eq_take.1 hpre
        refine ⟨lit.length, a, hpos, hm, k1, ?_⟩
        have k3 : n = chunk.length - lit.length := by simp [sizes, Op.size] at k2; omega
        rw [← hlit, k3]

namespace Props
open Vcd Vcd.Spec

/-- C84. A chunk that repeats a pattern of up to 32 bytes to its end, with target matching: the instructions are one ADD of no more bytes than the
pattern has and one COPY, from the chunk itself, of all the rest. Of the dictionary we need that it has no 32 bytes in common with
the chunk. -/
theorem repetition_is_one_copy (dict chunk : Bytes) (p : Nat) (hp : 0 < p) (hp2 : p ≤ 32) (hrep : Repeats p chunk)
    (hlen : p + 32 ≤ chunk.length) (hd : NothingShared dict chunk) (hs : dict.length + chunk.length < 2 ^ 31) (e : Engine)
    (hi : Engine.init dict = .ok (some e)) :
    ∃ m a, 0 < m ∧ m ≤ p ∧ dict.length ≤ a ∧ e.encode true chunk = .ok [.add (chunk.take m), .copy a (chunk.length - m), .output] := by
  have hne : chunk ≠ [] := by intro h; rw [h] at hlen; simp at hlen
  obtain ⟨e', ops, h1, _, h3, h4⟩ := Engine.encode_whole (dict := dict) (target := chunk) (matching := true)
    (by simp only [int32Max]; omega) hne
  rw [hi] at h1
  injection h1 with h1
  injection h1 with h1
  subst h1
  obtain ⟨m, a, k1, k2, k3, rfl⟩ := h4.repeats hp hrep (hrep.goesOn hp hp2) hlen hd
  exact ⟨m, a, k1, k2, k3, h3⟩

/-- C84, for patterns of any size: if in the chunk equal 32 bytes are only found at distances that are multiples of the pattern's size, the instructions
are again one ADD of no more bytes than the pattern has and one COPY. -/
theorem long_repetition_is_one_copy (dict chunk : Bytes) (p : Nat) (hp : 0 < p) (hrep : Repeats p chunk)
    (honly : ∀ i j, i < j → j + 32 ≤ chunk.length → (chunk.drop i).take 32 = (chunk.drop j).take 32 → p ∣ j - i)
    (hlen : p + 32 ≤ chunk.length) (hd : NothingShared dict chunk) (hs : dict.length + chunk.length < 2 ^ 31) (e : Engine)
    (hi : Engine.init dict = .ok (some e)) :
    ∃ m a, 0 < m ∧ m ≤ p ∧ dict.length ≤ a ∧ e.encode true chunk = .ok [.add (chunk.take m), .copy a (chunk.length - m), .output] := by
  have hne : chunk ≠ [] := by intro h; rw [h] at hlen; simp at hlen
  obtain ⟨e', ops, h1, _, h3, h4⟩ := Engine.encode_whole (dict := dict) (target := chunk) (matching := true)
    (by simp only [int32Max]; omega) hne
  rw [hi] at h1
  injection h1 with h1
  injection h1 with h1
  subst h1
  obtain ⟨m, a, k1, k2, k3, rfl⟩ := h4.repeats hp hrep (hrep.goesOnOnly honly) hlen hd
  exact ⟨m, a, k1, k2, k3, h3⟩

/-- C84. The delta of chunks each of which repeats a pattern of up to 32 bytes has at most 5 bytes for the header and 87 for each chunk, however long
the chunks are, in any binary format. -/
theorem repetitions_give_short_deltas (dict : Bytes) (flags : Nat) (chunks : List Bytes) (hb : flags &&& 4 = 0) (hlen : dict.length < 2 ^ 31)
    (hs : ∀ c ∈ chunks, dict.length + c.length < 2 ^ 31 ∧ c.length + 64 < 2 ^ 31)
    (hrep : ∀ c ∈ chunks, ∃ p, 0 < p ∧ p ≤ 32 ∧ p + 32 ≤ c.length ∧ Repeats p c) (hd : ∀ c ∈ chunks, NothingShared dict c) :
    ∃ delta, encode dict flags true chunks = .ok (some delta) ∧ delta.length ≤ 5 + 87 * chunks.length := by
  obtain ⟨engine, window, h1, h2, h3, h4⟩ := Encoder.protocol_full dict hlen flags hb true
  obtain ⟨e', k⟩ := h2 ([.start] ++ chunks.map .chunk ++ [.finish]) (by
    intro data hm
    simp at hm
    exact hs data hm)
  refine ⟨Writer.header flags ++ chunks.flatMap window, ?_, ?_⟩
  · simp only [encode, h1, k, protocol_encode]
    rw [if_pos (by simp)]
    simp [List.flatMap_map]
  · rw [List.length_append]
    have hh : (Writer.header flags).length = 5 := by simp only [Writer.header]; split <;> rfl
    have key : ∀ cs : List Bytes, (∀ c ∈ cs, c ∈ chunks) → (cs.flatMap window).length ≤ 87 * cs.length := by
      intro cs
      induction cs with
      | nil => simp
      | cons c cs ih =>
        intro hc
        have hm := hc c (List.mem_cons_self ..)
        have := ih fun q hq => hc q (List.mem_cons_of_mem _ hq)
        simp only [List.flatMap_cons, List.length_append, List.length_cons] at this ⊢
        have : (window c).length ≤ 87 := by
          obtain ⟨p, p1, p2, p3, p4⟩ := hrep c hm
          have hne : c ≠ [] := by intro h; rw [h] at p3; simp at p3
          obtain ⟨_, _, _, ⟨ops, w1, w2⟩, _⟩ := h4 c hne (hs c hm).1 (hs c hm).2
          obtain ⟨m, a, m1, m2, _, rfl⟩ := w1.repeats p1 p4 (p4.goesOn p1 p2) p3 (hd c hm)
          simp only [Writer.costs, List.map_cons, List.map_nil, List.sum_cons, List.sum_nil, Writer.cost, List.length_take] at w2
          omega
        omega
    have := key chunks fun _ h => h
    omega

/-- The hypothesis about the dictionary is needed: a match in the dictionary, although a short one, is taken where the chunk itself has none yet, and
this can go on. The pattern has 16 bytes here, and the dictionary 32 bytes of its repetition. -/
theorem dictionary_can_be_in_the_way : (do
    let pattern : Bytes := (List.range 16).map UInt8.ofNat
    let e? ← Engine.init (pattern.drop 1 ++ pattern ++ [0])
    match e? with
    | none => .error .assertion
    | some e => e.encode true (List.replicate 8 pattern).flatten : Except Fault _).toOption =
    some [.add [0], .copy 0 32, .copy 0 32, .copy 0 32, .add ((List.range 31).map fun i => UInt8.ofNat ((i + 1) % 16)), .output] := by decide +kernel

/-! ## The hypotheses can be met -/

/-- Forty times `LA`: a pattern of two bytes; and there is no dictionary to share anything with. -/
example : Repeats 2 ((List.replicate 40 [0x4C, 0x41]).flatten : Bytes) ∧ 2 + 32 ≤ ((List.replicate 40 [0x4C, 0x41]).flatten : Bytes).length ∧
    NothingShared [] ((List.replicate 40 [0x4C, 0x41]).flatten : Bytes) := by
  refine ⟨?_, by decide, fun i j h => by simp at h⟩
  have : ∀ i < 78, ((List.replicate 40 [0x4C, 0x41]).flatten : Bytes)[i + 2]? = ((List.replicate 40 [0x4C, 0x41]).flatten : Bytes)[i]? := by
    decide +kernel
  intro i hi
  have hl : ((List.replicate 40 [0x4C, 0x41]).flatten : Bytes).length = 80 := by decide
  exact this i (by omega)

/-- What the engine makes of it, with a dictionary that has nothing in common with it: `LA` and a COPY of 78 bytes. -/
example : (do
    let e? ← Engine.init ((List.range 48).map fun i => UInt8.ofNat (i * i))
    match e? with
    | none => .error .assertion
    | some e => e.encode true ((List.replicate 40 [0x4C, 0x41]).flatten) : Except Fault _).toOption =
    some [.add [0x4C, 0x41], .copy 48 78, .output] := by decide +kernel

/-- A pattern of 40 bytes, twice and a half. -/
def longPattern : Bytes := ((List.range 100).map fun i => UInt8.ofNat (i % 40))

example : Repeats 40 longPattern ∧ 40 + 32 ≤ longPattern.length ∧
    ∀ i j, i < j → j + 32 ≤ longPattern.length → (longPattern.drop i).take 32 = (longPattern.drop j).take 32 → 40 ∣ j - i := by
  have hl : longPattern.length = 100 := by decide +kernel
  refine ⟨?_, by rw [hl]; decide, ?_⟩
  · have : ∀ i < 60, longPattern[i + 40]? = longPattern[i]? := by decide +kernel
    intro i hi
    exact this i (by omega)
  · have : ∀ j < 69, ∀ i < j, (longPattern.drop i).take 32 = (longPattern.drop j).take 32 → (j - i) % 40 = 0 := by decide +kernel
    intro i j hij hj h
    exact Nat.dvd_of_mod_eq_zero (this j (by omega) i hij h)

end Props
end Vcd
