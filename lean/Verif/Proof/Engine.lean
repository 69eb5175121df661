import Verif.Spec.Engine
import Verif.Proof.BlockMatch
import Verif.Proof.Exec

/-! # The engine's instructions -/

namespace Vcd
open Spec

/-- A COPY of bytes that are equal to those that follow continues the data. -/
theorem extend_continues (full : Bytes) : ∀ (n p a : Nat), a < p → p + n ≤ full.length →
    (∀ i < n, full[a + i]? = full[p + i]?) → extend (full.take p) a n = full.take (p + n) := by
  intro n
  induction n with
  | zero => intro p a _ _ _; rfl
  | succ n ih =>
    intro p a ha hp heq
    have h0 := heq 0 (by omega)
    simp only [Nat.add_zero] at h0
    have hs : full.take p ++ [(full.take p).getD a 0] = full.take (p + 1) := by
      rw [List.take_add_one]
      congr 1
      rw [List.getD_eq_getElem?_getD, List.getElem?_take, if_pos ha, h0, List.getElem?_eq_getElem (by omega)]
      rfl
    rw [extend, hs, ih (p + 1) (a + 1) (by omega) (by omega)]
    · rw [show p + 1 + n = p + (n + 1) by omega]
    · intro i hi
      have := heq (i + 1) (by omega)
      rwa [show a + (i + 1) = a + 1 + i by omega, show p + (i + 1) = p + 1 + i by omega] at this

namespace Engine

/-- A COPY of `n` bytes from `a` that produces the target from position `p` on. -/
structure Copies (dict target : Bytes) (matching : Bool) (p a n : Nat) : Prop where
  size : 32 ≤ n
  below : a < dict.length + p
  inTarget : p + n ≤ target.length
  inDict : a + n ≤ dict.length ∨ matching = true ∧ dict.length ≤ a
  equal : ∀ i < n, (dict ++ target)[a + i]? = (dict ++ target)[dict.length + p + i]?
  right : a + n = dict.length ∨ p + n = target.length ∨
    (dict ++ target)[a + n]? ≠ (dict ++ target)[dict.length + p + n]?

/-- A COPY from `a` at position `p`, after an ADD, cannot begin one byte earlier. -/
def LeftStop (dict target : Bytes) (p a : Nat) : Prop :=
  a = 0 ∨ a = dict.length ∨ (dict ++ target)[a - 1]? ≠ (dict ++ target)[dict.length + p - 1]?

/-- The instructions emitted for the target from position `p` up to `q`: COPYs, each with or without an
ADD before it. -/
inductive Emits (dict target : Bytes) (matching : Bool) : Nat → List Op → Nat → Prop
  | nil {p : Nat} : Emits dict target matching p [] p
  | copy {p a n q : Nat} {ops : List Op} : Copies dict target matching p a n →
      Emits dict target matching (p + n) ops q → Emits dict target matching p (.copy a n :: ops) q
  | addCopy {p k a n q : Nat} {ops : List Op} : 0 < k → Copies dict target matching (p + k) a n → LeftStop dict target (p + k) a →
      Emits dict target matching (p + k + n) ops q →
      Emits dict target matching p (.add ((target.drop p).take k) :: .copy a n :: ops) q

theorem Emits.append {dict target : Bytes} {matching : Bool} {p q r : Nat} {ops ops' : List Op}
    (h : Emits dict target matching p ops q) (h' : Emits dict target matching q ops' r) :
    Emits dict target matching p (ops ++ ops') r := by
  induction h with
  | nil => exact h'
  | copy hc _ ih => exact .copy hc (ih h')
  | addCopy hk hc hl _ ih => exact .addCopy hk hc hl (ih h')

theorem Emits.le {dict target : Bytes} {matching : Bool} {p q : Nat} {ops : List Op}
    (h : Emits dict target matching p ops q) : p ≤ q := by
  induction h <;> omega

theorem Copies.exec {dict target : Bytes} {matching : Bool} {p a n : Nat}
    (h : Copies dict target matching p a n) :
    extend (dict ++ target.take p) a n = dict ++ target.take (p + n) := by
  have := extend_continues (dict ++ target) n (dict.length + p) a h.below
    (by have := h.inTarget; simp; omega) h.equal
  have e : ∀ k, (dict ++ target).take (dict.length + k) = dict ++ target.take k := by
    intro k
    rw [List.take_append, List.take_of_length_le (by omega), show dict.length + k - dict.length = k by omega]
  rwa [Nat.add_assoc, e, e] at this

theorem take_add_slice (target : Bytes) (p k : Nat) :
    target.take p ++ (target.drop p).take k = target.take (p + k) := by
  rw [← List.take_append_drop p (target.take (p + k)), List.take_take, List.drop_take, Nat.min_eq_left (by omega),
    show p + k - p = k by omega]

theorem Emits.exec {dict target : Bytes} {matching : Bool} {p q : Nat} {ops : List Op}
    (h : Emits dict target matching p ops q) :
    execOps (dict ++ target.take p) ops = dict ++ target.take q := by
  induction h with
  | nil => rfl
  | copy hc _ ih =>
    rw [execOps, List.foldl_cons, Op.apply, hc.exec]; exact ih
  | addCopy _ hc _ _ ih =>
    rw [execOps, List.foldl_cons, List.foldl_cons, Op.apply, Op.apply, List.append_assoc, take_add_slice, hc.exec]
    exact ih

theorem Emits.emittable {dict target : Bytes} {matching : Bool} {p q : Nat} {ops : List Op}
    (h : Emits dict target matching p ops q) (pre post : List Op) (op : Op) (he : ops = pre ++ op :: post)
    (hp : p ≤ target.length) :
    Emittable dict.length matching (execOps (dict ++ target.take p) pre).length op := by
  induction h generalizing pre with
  | nil => simp at he
  | @copy p a n q ops hc _ ih =>
    cases pre with
    | nil =>
      simp at he
      rw [← he.1]
      refine ⟨hc.size, ?_, hc.inDict⟩
      simp [execOps, Nat.min_eq_left hp]; exact hc.below
    | cons o pre =>
      simp at he
      rw [← he.1, execOps, List.foldl_cons, Op.apply, hc.exec]
      exact ih pre he.2 hc.inTarget
  | @addCopy p k a n q ops hk hc _ _ ih =>
    have hin := hc.inTarget
    cases pre with
    | nil =>
      simp at he
      rw [← he.1]
      intro h0
      have := congrArg List.length h0
      simp at this
      omega
    | cons o pre =>
      simp at he
      rw [← he.1, execOps, List.foldl_cons, Op.apply, List.append_assoc, take_add_slice]
      cases pre with
      | nil =>
        simp at he
        rw [← he.2.1]
        refine ⟨hc.size, ?_, hc.inDict⟩
        simp [Nat.min_eq_left (show p + k ≤ target.length by omega)]; exact hc.below
      | cons o pre =>
        simp at he
        rw [← he.2.1, List.foldl_cons, Op.apply, hc.exec]
        exact ih pre he.2.2 hin

theorem Emits.le_length {dict target : Bytes} {matching : Bool} {p q : Nat} {ops : List Op}
    (h : Emits dict target matching p ops q) (hp : p ≤ target.length) : q ≤ target.length := by
  induction h with
  | nil => exact hp
  | copy hc _ ih => exact ih hc.inTarget
  | addCopy _ hc _ _ ih => exact ih hc.inTarget

/-! ## The target hash -/

/-- What the loop knows of its target hash. -/
structure TargetHash (dict target : Bytes) (candidate : Nat) (th : BlockHash) : Prop where
  inv : ∃ hs, th.Inv hs ∧ BlockHash.Honest th hs
  source : th.source = target
  offset : th.startingOffset = dict.length
  before : ((th.added : Int) - 1) * kBlockSize < candidate
  after : candidate ≤ th.added * kBlockSize
  mask : th.mask = (calcTableSize target.length - 1) % 4294967296

/-- A match in the dictionary. -/
theorem copies_of_dict {dict target : Bytes} {matching : Bool} {ne c n s t size : Nat}
    (h : BlockHash.Extension dict (target.drop ne) c n s t size) (hs : 32 ≤ size) :
    Copies dict target matching (ne + t) s size := by
  obtain ⟨⟨a1, a2, a3, a4, a5⟩, ⟨_, a6⟩, _⟩ := h
  rw [BlockHash.slice_eq] at a5
  rw [List.length_drop] at a2 a6
  refine ⟨hs, by omega, by omega, .inl a1, fun i hi => ?_, ?_⟩
  · rw [List.getElem?_append_left (by omega), a5 i hi, List.getElem?_drop, List.getElem?_append_right (by omega)]
    congr 1; omega
  · by_cases h : s + size = dict.length
    · exact .inl h
    · rcases a6 with a6 | a6 | a6
      · exact absurd a6 h
      · exact .inr (.inl (by omega))
      · refine .inr (.inr ?_)
        rw [List.getElem?_append_left (by omega), List.getElem?_append_right (by omega)]
        rw [List.getElem?_drop] at a6
        rwa [show dict.length + (ne + t) + size - dict.length = ne + (t + size) by omega]

/-- A match in the target. -/
theorem copies_of_target {dict target : Bytes} {ne c n s t size : Nat}
    (h : BlockHash.Extension target (target.drop ne) c n s t size) (hs : 32 ≤ size)
    (hn : n * kBlockSize < ne + c) : Copies dict target true (ne + t) (s + dict.length) size := by
  obtain ⟨⟨a1, a2, a3, a4, a5⟩, ⟨_, a6⟩, a8⟩ := h
  rw [BlockHash.slice_eq] at a5
  rw [List.length_drop] at a2 a6
  refine ⟨hs, by omega, by omega, .inr ⟨rfl, by omega⟩, fun i hi => ?_, ?_⟩
  · have := a5 i hi
    rw [List.getElem?_drop] at this
    rw [List.getElem?_append_right (by omega), List.getElem?_append_right (by omega),
      show s + dict.length + i - dict.length = s + i by omega, this]
    congr 1; omega
  · rcases a6 with a6 | a6 | a6
    · omega
    · exact .inr (.inl (by omega))
    · refine .inr (.inr ?_)
      rw [List.getElem?_append_right (by omega), List.getElem?_append_right (by omega)]
      rw [List.getElem?_drop] at a6
      rwa [show s + dict.length + size - dict.length = s + size by omega,
        show dict.length + (ne + t) + size - dict.length = ne + (t + size) by omega]

theorem leftStop_of_dict {dict target : Bytes} {ne c n s t size : Nat}
    (h : BlockHash.Extension dict (target.drop ne) c n s t size) (hs : 32 ≤ size) (ht : 0 < t) :
    LeftStop dict target (ne + t) s := by
  obtain ⟨⟨a1, a2, a3, a4, a5⟩, ⟨a6, _⟩, _⟩ := h
  rcases a6 with a6 | a6 | a6
  · exact .inl a6
  · omega
  · by_cases h0 : s = 0
    · exact .inl h0
    · refine .inr (.inr ?_)
      rw [List.getElem?_append_left (by omega), List.getElem?_append_right (by omega)]
      rw [List.getElem?_drop] at a6
      rwa [show dict.length + (ne + t) - 1 - dict.length = ne + (t - 1) by omega]

theorem leftStop_of_target {dict target : Bytes} {ne c n s t size : Nat}
    (h : BlockHash.Extension target (target.drop ne) c n s t size) (ht : 0 < t) :
    LeftStop dict target (ne + t) (s + dict.length) := by
  obtain ⟨_, ⟨a6, _⟩, _⟩ := h
  rcases a6 with a6 | a6 | a6
  · exact .inr (.inl (by omega))
  · omega
  · by_cases h0 : s = 0
    · exact .inr (.inl (by omega))
    · refine .inr (.inr ?_)
      rw [List.getElem?_append_right (by omega), List.getElem?_append_right (by omega)]
      rw [List.getElem?_drop] at a6
      rwa [show dict.length + (ne + t) - 1 - dict.length = ne + (t - 1) by omega,
        show s + dict.length - 1 - dict.length = s - 1 by omega]

/-- The dictionary hash of an engine. -/
structure DictHash (dict : Bytes) (hashed : BlockHash) : Prop where
  inv : ∃ hs, hashed.Inv hs ∧ BlockHash.Honest hashed hs
  source : hashed.source = dict
  offset : hashed.startingOffset = (0 : Nat)
  full : hashed.added = dict.length / kBlockSize
  mask : hashed.mask = (calcTableSize dict.length - 1) % 4294967296

/-- What a search that finds less than 32 bytes says. -/
theorem noMatch_of_search {source target : Bytes} {bh : BlockHash} {hs : List UInt32} {off ne c : Nat} {best r : Match}
    (hi : bh.Inv hs) (ho : BlockHash.Honest bh hs) (hsource : bh.source = source) (hoff : bh.startingOffset = off)
    (hmask : bh.mask = (calcTableSize source.length - 1) % 4294967296)
    (hlen : source.length + off ≤ int32Max) (htl : target.length ≤ int32Max) (hne : ne ≤ c)
    (hc : c + kBlockSize ≤ target.length)
    (hr : bh.findBestMatch (RollingHash.hash ((target.drop c).take kBlockSize)) (target.drop ne) (c - ne) best = .ok r)
    (hsz : r.size < 32) : NoMatchAt source target bh.added ne c := by
  have hdrop : (target.drop ne).drop (c - ne) = target.drop c := by
    rw [List.drop_drop]; congr 1; omega
  obtain ⟨r', hr', _, _, hfirst, hfew⟩ := BlockHash.findBestMatch_spec hi hoff (by rw [hsource]; exact hlen)
    (show (target.drop ne).length ≤ int32Max by rw [List.length_drop]; omega)
    (show c - ne + kBlockSize ≤ (target.drop ne).length by rw [List.length_drop]; omega)
    (RollingHash.hash ((target.drop c).take kBlockSize)) best
  rw [hr] at hr'
  cases hr'
  have hb : BlockHash.bucket bh.mask hs (bh.index (RollingHash.hash ((target.drop c).take kBlockSize))) =
      sharing source bh.added ((target.drop c).take 16) := by
    rw [bucket_eq hi ho, hsource, sharing]
    apply List.filter_congr
    intro k _
    rw [BlockHash.index_mod (n := source.length) (by omega) hmask, BlockHash.index_mod (n := source.length) (by omega) hmask]
    rfl
  rw [hb, hdrop, hsource] at hfirst
  rw [hb, hsource] at hfew
  intro k s t size hk hreach hpt hal hm
  have hm' : Matches source (target.drop ne) (c - ne) s (t - ne) size := by
    obtain ⟨a1, a2, a3, a4, a5⟩ := hm
    refine ⟨a1, by rw [List.length_drop]; omega, by omega, by omega, ?_⟩
    rw [a5, List.drop_drop, show ne + (t - ne) = t by omega]
  obtain ⟨s', t', size', hext, hle⟩ := BlockHash.extension_of_matches (n := k) hm'
    (by have := hm'.start; simp only [kBlockSize]; omega)
  have hbe := hext.block_eq
  rw [hdrop] at hbe
  rcases hreach with hl | ⟨pre, post, hpp, hpl, hpre⟩
  · refine Nat.lt_of_le_of_lt hle (Nat.lt_of_le_of_lt (hfew hl k ?_ s' t' size' hext) hsz)
    rw [sharing, List.mem_filter, List.mem_range]
    refine ⟨hk, ?_⟩
    rw [hbe]
    simp [kBlockSize]
  · exact Nat.lt_of_le_of_lt hle (Nat.lt_of_le_of_lt (hfirst pre k post hpp hpl hpre hbe s' t' size' hext) hsz)

/-- No match at a position: neither in the dictionary nor, with matching on, in the target before it. -/
def NoneAt (dict target : Bytes) (matching : Bool) (p c : Nat) : Prop :=
  NoMatchAt dict target (dict.length / 16) p c ∧ (matching = true → NoMatchAt target target ((c + 15) / 16) p c)

/-- The positions and sizes of the ADDs in a list of instructions that starts at a position. -/
def literals : Nat → List Op → List (Nat × Nat)
  | _, [] => []
  | p, .add bs :: ops => (p, bs.length) :: literals (p + bs.length) ops
  | p, .run _ n :: ops => literals (p + n) ops
  | p, .copy _ n :: ops => literals (p + n) ops

theorem literals_append (p : Nat) (a b : List Op) :
    literals p (a ++ b) = literals p a ++ literals (p + sizes a) b := by
  induction a generalizing p with
  | nil => simp [literals, sizes]
  | cons o a ih =>
    cases o <;> simp only [List.cons_append, literals, ih, sizes, List.map_cons, List.sum_cons, Op.size, Nat.add_assoc]

theorem Emits.sizes {dict target : Bytes} {matching : Bool} {p q : Nat} {ops : List Op}
    (h : Emits dict target matching p ops q) : p + sizes ops = q := by
  induction h with
  | nil => simp [Spec.sizes]
  | copy _ _ ih =>
    simp only [Spec.sizes, List.map_cons, List.sum_cons, Op.size] at ih ⊢
    omega
  | addCopy _ hc _ _ ih =>
    have := hc.inTarget
    simp only [Spec.sizes, List.map_cons, List.sum_cons, Op.size, List.length_take, List.length_drop] at ih ⊢
    omega

theorem encodeCopy_spec {dict target : Bytes} {hashed : BlockHash} {th? : Option BlockHash} {h : UInt32}
    {ne c : Nat} (hd : DictHash dict hashed) (hth : ∀ th, th? = some th → TargetHash dict target c th)
    (hlen : dict.length + target.length ≤ int32Max) (hne : ne ≤ c) (hc : c + kBlockSize ≤ target.length) :
    (encodeCopyForBestMatch hashed th? h (target.drop ne) (c - ne) = .ok (0, []) ∧
      (h = RollingHash.hash ((target.drop c).take kBlockSize) → NoneAt dict target th?.isSome ne c)) ∨
    ∃ ops n, encodeCopyForBestMatch hashed th? h (target.drop ne) (c - ne) = .ok (n, ops.map Op.call) ∧
      0 < n ∧ c + kBlockSize ≤ ne + n ∧ Emits dict target th?.isSome ne ops (ne + n) ∧
      ∀ x ∈ literals ne ops, x.1 = ne ∧ ne + x.2 ≤ c := by
  obtain ⟨hs, hdi, hdh⟩ := hd.inv
  have hc' : c - ne + kBlockSize ≤ (target.drop ne).length := by rw [List.length_drop]; omega
  have htl : (target.drop ne).length ≤ int32Max := by rw [List.length_drop]; omega
  have hsrc := hd.source
  have none : ∀ b, bestMatch hashed th? h (target.drop ne) (c - ne) = .ok b → b.size < 32 →
      h = RollingHash.hash ((target.drop c).take kBlockSize) → NoneAt dict target th?.isSome ne c := by
    intro b hb hsz hh
    subst hh
    obtain ⟨b1, hb1, _, _⟩ := BlockHash.findBestMatch_spec hdi hd.offset (by rw [hsrc]; omega) htl hc'
      (RollingHash.hash ((target.drop c).take kBlockSize)) {}
    have hd1 : b1.size < 32 → NoMatchAt dict target (dict.length / 16) ne c := fun hlt => by
      have := noMatch_of_search hdi hdh hsrc hd.offset hd.mask (by omega) (by omega) hne hc hb1 hlt
      rwa [hd.full] at this
    rw [bestMatch, hb1] at hb
    cases th? with
    | none =>
      simp only [Except.ok.injEq] at hb
      subst hb
      exact ⟨hd1 hsz, by simp⟩
    | some th =>
      simp only at hb
      have ht := hth th rfl
      obtain ⟨hs', hti, hto⟩ := ht.inv
      obtain ⟨b2, hb2, hle, _⟩ := BlockHash.findBestMatch_spec hti ht.offset (by rw [ht.source]; omega) htl hc'
        (RollingHash.hash ((target.drop c).take kBlockSize)) b1
      rw [hb] at hb2
      cases hb2
      refine ⟨hd1 (by omega), fun _ => ?_⟩
      have := noMatch_of_search hti hto ht.source ht.offset ht.mask (by omega) (by omega) hne hc hb hsz
      have e : th.added = (c + 15) / 16 := by
        have h1 := ht.before
        have h2 := ht.after
        simp only [kBlockSize] at h1 h2
        omega
      rwa [e] at this
  obtain ⟨b1, hb1, _, hor1, _⟩ := BlockHash.findBestMatch_spec hdi hd.offset (by rw [hsrc]; omega) htl hc' h {}
  simp only [encodeCopyForBestMatch, bind, Except.bind]
  -- the best match over both hashes
  have key : ∃ b, bestMatch hashed th? h (target.drop ne) (c - ne) = .ok b ∧ (b = {} ∨ ∃ n s t size, BlockHash.Extension dict (target.drop ne) (c - ne) n s t size ∧
          b = ⟨size, (s : Int), (t : Int)⟩ ∨
        ∃ n s t size, BlockHash.Extension target (target.drop ne) (c - ne) n s t size ∧ th?.isSome = true ∧
          n * kBlockSize < c ∧ b = ⟨size, ((s + dict.length : Nat) : Int), (t : Int)⟩) := by
    rw [bestMatch, hb1]
    have hor1' : b1 = {} ∨ ∃ n s t size, BlockHash.Extension dict (target.drop ne) (c - ne) n s t size ∧
        b1 = ⟨size, (s : Int), (t : Int)⟩ := by
      rcases hor1 with h | ⟨n, s, t, size, _, h2, _, h4⟩
      · exact Or.inl h
      · exact Or.inr ⟨n, s, t, size, by rw [← hsrc]; exact h2, by simpa using h4⟩
    cases th? with
    | none =>
      refine ⟨b1, rfl, ?_⟩
      rcases hor1' with h | ⟨n, s, t, size, h⟩
      · exact Or.inl h
      · exact Or.inr ⟨n, s, t, size, Or.inl h⟩
    | some th =>
      have ht := hth th rfl
      obtain ⟨hs', hti, _⟩ := ht.inv
      obtain ⟨b2, hb2, _, hor2, _⟩ := BlockHash.findBestMatch_spec hti ht.offset (by rw [ht.source]; omega) htl hc' h b1
      refine ⟨b2, hb2, ?_⟩
      rcases hor2 with rfl | ⟨n, s, t, size, h1, h2, _, h4⟩
      · rcases hor1' with h | ⟨n, s, t, size, h⟩
        · exact Or.inl h
        · exact Or.inr ⟨n, s, t, size, Or.inl h⟩
      · refine Or.inr ⟨n, s, t, size, Or.inr ⟨n, s, t, size, by rw [← ht.source]; rwa [ht.source] at h2 ⊢, rfl, ?_, h4⟩⟩
        have := ht.before
        simp only [kBlockSize] at *
        omega
  obtain ⟨b, hb, hor⟩ := key
  have fin : ∀ s t size, b = ⟨size, (s : Nat), (t : Nat)⟩ → t ≤ c - ne → c - ne + kBlockSize ≤ t + size →
      (32 ≤ size → Copies dict target th?.isSome (ne + t) s size ∧ (0 < t → LeftStop dict target (ne + t) s)) →
      (encodeCopyForBestMatch hashed th? h (target.drop ne) (c - ne) = .ok (0, []) ∧
        (h = RollingHash.hash ((target.drop c).take kBlockSize) → NoneAt dict target th?.isSome ne c)) ∨
      ∃ ops n, encodeCopyForBestMatch hashed th? h (target.drop ne) (c - ne) = .ok (n, ops.map Op.call) ∧
        0 < n ∧ c + kBlockSize ≤ ne + n ∧ Emits dict target th?.isSome ne ops (ne + n) ∧
        ∀ x ∈ literals ne ops, x.1 = ne ∧ ne + x.2 ≤ c := by
    intro s t size hbe htc hcov hcop
    simp only [encodeCopyForBestMatch, bind, Except.bind, hb]
    subst hbe
    simp only
    by_cases hsz : size < kMinimumMatchSize
    · rw [if_pos hsz]; exact Or.inl ⟨rfl, none _ hb hsz⟩
    · rw [if_neg hsz]
      right
      obtain ⟨hcop, hleft⟩ := hcop (by simp only [kMinimumMatchSize] at hsz; omega)
      have hin := hcop.inTarget
      by_cases ht0 : (t : Int) > 0
      · rw [if_pos ht0, if_neg (by rw [List.length_drop]; omega)]
        refine ⟨[.add ((target.drop ne).take t), .copy s size], t + size, rfl, by omega, by omega, ?_, ?_⟩
        · exact .addCopy (by omega) hcop (hleft (by omega)) (by rw [show ne + (t + size) = ne + t + size by omega]; exact .nil)
        · intro x hx
          simp only [literals, List.mem_cons, List.not_mem_nil, or_false] at hx
          subst hx
          simp only [List.length_take, List.length_drop]
          exact ⟨trivial, by omega⟩
      · rw [if_neg ht0]
        have : t = 0 := by omega
        subst this
        refine ⟨[.copy s size], 0 + size, rfl, by simp only [kBlockSize] at hcov; omega, by omega, ?_, ?_⟩
        · exact .copy (by simpa using hcop) (by rw [Nat.zero_add]; exact .nil)
        · simp [literals]
  rcases hor with rfl | ⟨n, s, t, size, ⟨h1, h2⟩ | ⟨n, s, t, size, h1, h2, h3, h4⟩⟩
  · left
    refine ⟨by rw [hb]; rfl, none _ hb (by decide)⟩
  · exact fin s t size h2 h1.isMatch.start (h1.isMatch.stop) (fun h => ⟨copies_of_dict h1 h, leftStop_of_dict h1 h⟩)
  · exact fin (s + dict.length) t size h4 h1.isMatch.start (h1.isMatch.stop)
      (fun h => by rw [h2]; exact ⟨copies_of_target h1 h (by omega), leftStop_of_target h1⟩)

/-! ## The loop -/

theorem readBlock_eq {data : Bytes} {p : Nat} (h : p + kBlockSize ≤ data.length) :
    readBlock data p = .ok ((data.drop p).take kBlockSize) := by
  rw [readBlock, if_pos h]

theorem roll_hash {target : Bytes} {c : Nat} (h : c + 1 + kBlockSize ≤ target.length) :
    ∃ old new, target[c]? = some old ∧ target[c + kBlockSize]? = some new ∧
      RollingHash.updateHash kBlockSize (RollingHash.hash ((target.drop c).take kBlockSize)) old new =
        RollingHash.hash ((target.drop (c + 1)).take kBlockSize) := by
  have hk : kBlockSize = 16 := rfl
  refine ⟨target[c], target[c + kBlockSize], List.getElem?_eq_getElem _, List.getElem?_eq_getElem _, ?_⟩
  have h1 : (target.drop c).take kBlockSize = target[c] :: (target.drop (c + 1)).take 15 := by
    rw [List.drop_eq_getElem_cons (by omega), hk, List.take_succ_cons]
  have h2 : (target.drop (c + 1)).take kBlockSize = (target.drop (c + 1)).take 15 ++ [target[c + kBlockSize]] := by
    have : (target.drop (c + 1)).take kBlockSize = (target.drop (c + 1)).take 15 ++ ((target.drop (c + 1))[15]?).toList :=
      List.take_add_one
    rw [this, List.getElem?_drop]
    congr 1
    rw [show c + 1 + 15 = c + kBlockSize by rw [hk], List.getElem?_eq_getElem (by omega)]
    rfl
  have hl : ((target.drop (c + 1)).take 15).length + 1 = kBlockSize := by
    rw [List.length_take, List.length_drop]; omega
  rw [h1, h2, ← RollingHash.updateHash_eq _ _ _ (by omega), hl]

theorem encodeLoop_spec {dict target : Bytes} {hashed : BlockHash} (hd : DictHash dict hashed)
    (hlen : dict.length + target.length ≤ int32Max) (fuel : Nat) :
    ∀ (ne c : Nat) (th? : Option BlockHash) (calls : List CoderCall),
    target.length < c + fuel → (∀ th, th? = some th → TargetHash dict target c th) → ne ≤ c →
    c + kBlockSize ≤ target.length → (∀ c', ne ≤ c' → c' < c → NoneAt dict target th?.isSome ne c') →
    ∃ ops q, encodeLoop hashed target fuel ne c (RollingHash.hash ((target.drop c).take kBlockSize)) th? calls =
        .ok (q, calls ++ ops.map Op.call) ∧ Emits dict target th?.isSome ne ops q ∧
      (∀ x ∈ literals ne ops, ∀ c', x.1 ≤ c' → c' < x.1 + x.2 → NoneAt dict target th?.isSome x.1 c') ∧
      (∀ c', q ≤ c' → c' + kBlockSize ≤ target.length → NoneAt dict target th?.isSome q c') := by
  have hlen' := hlen
  simp only [int32Max] at hlen'
  induction fuel with
  | zero => intro ne c th? calls hf _ _ hc _; omega
  | succ fuel ih =>
    intro ne c th? calls hf hth hne hc hno
    rw [encodeLoop]
    rcases encodeCopy_spec (h := RollingHash.hash ((target.drop c).take kBlockSize)) hd hth hlen hne hc with
      ⟨he, hno1⟩ | ⟨ops, n, he, hn, hcn, hem, hlit⟩
    · have hno1 := hno1 rfl
      have hno' : ∀ c', ne ≤ c' → c' < c + 1 → NoneAt dict target th?.isSome ne c' := by
        intro c' h1 h2
        by_cases h3 : c' = c
        · rw [h3]; exact hno1
        · exact hno c' h1 (by omega)
      rw [he]
      simp only [bind, Except.bind]
      rw [if_neg (by omega)]
      by_cases hend : c + 1 > target.length - kBlockSize
      · rw [if_pos hend]
        exact ⟨[], ne, by simp, .nil, by simp [literals], fun c' h1 h2 => hno' c' h1 (by omega)⟩
      · rw [if_neg hend]
        obtain ⟨old, new, ho, hn, hroll⟩ := roll_hash (target := target) (c := c) (by omega)
        have hadd : ∃ th?', updateTargetHash th? (·.addOneIndexHash c (RollingHash.hash ((target.drop c).take kBlockSize)))
              = .ok th?' ∧
            th?'.isSome = th?.isSome ∧ ∀ th, th?' = some th → TargetHash dict target (c + 1) th := by
          cases th? with
          | none => exact ⟨none, rfl, rfl, by simp⟩
          | some th =>
            obtain ⟨⟨hs, hi, ho⟩, hsrc, hoff, hb, ha, hmk⟩ := hth th rfl
            simp only [updateTargetHash, BlockHash.addOneIndexHash]
            by_cases hidx : c = th.added * kBlockSize
            · rw [if_pos hidx]
              obtain ⟨th', h1, h2, h3, h4, h5⟩ := hi.addBlock (RollingHash.hash ((target.drop c).take kBlockSize))
                (by simp only [BlockHash.numBlocks, hsrc, kBlockSize] at *; omega)
              rw [h1]
              refine ⟨some th', rfl, rfl, ?_⟩
              intro th'' he
              cases he
              refine ⟨⟨_, h2, ?_⟩, h3.trans hsrc, h4.trans hoff, ?_, ?_, (BlockHash.addBlock_mask h1).trans hmk⟩
              · have hbl : (target.drop c).take kBlockSize = Spec.block th.source hs.length := by
                  rw [Spec.block, hi.added, hsrc, hidx, Nat.mul_comm]; rfl
                rw [hbl]
                exact ho.snoc h3
              · rw [h5]; simp only [kBlockSize] at *; omega
              · rw [h5]; simp only [kBlockSize] at *; omega
            · rw [if_neg hidx]
              refine ⟨some th, rfl, rfl, ?_⟩
              intro th'' he
              cases he
              exact ⟨⟨hs, hi, ho⟩, hsrc, hoff, by omega, by omega, hmk⟩
        obtain ⟨th?', hadd1, hadd2, hadd3⟩ := hadd
        rw [hadd1]
        simp only
        rw [ho, hn]
        simp only
        rw [hroll]
        have := ih ne (c + 1) th?' calls (by omega) hadd3 (by omega) (by omega)
          (by rw [hadd2]; exact hno')
        rwa [hadd2] at this
    · rw [he]
      simp only [bind, Except.bind]
      rw [if_pos (by omega)]
      have hq := hem.le_length (by omega)
      by_cases hend : ne + n > target.length - kBlockSize
      · rw [if_pos hend]
        refine ⟨ops, ne + n, rfl, hem, ?_, fun c' h1 h2 => by omega⟩
        intro x hx c' h1 h2
        obtain ⟨e1, e2⟩ := hlit x hx
        rw [e1] at h1 h2 ⊢
        exact hno c' h1 (by omega)
      · rw [if_neg hend, readBlock_eq (by omega)]
        simp only
        have hadd : ∃ th?', updateTargetHash th? (·.addAllBlocksThroughIndex (toInt32 (ne + n))) = .ok th?' ∧
            th?'.isSome = th?.isSome ∧ ∀ th, th?' = some th → TargetHash dict target (ne + n) th := by
          cases th? with
          | none => exact ⟨none, rfl, rfl, by simp⟩
          | some th =>
            obtain ⟨⟨hs, hi, ho⟩, hsrc, hoff, hb, ha, hmk⟩ := hth th rfl
            simp only [updateTargetHash]
            rw [toInt32_of_lt (by omega)]
            obtain ⟨th', hs', h1, h2, h3, h4, h5, h6, h7, h8⟩ := BlockHash.addAllBlocks_ok (e := ((ne + n : Nat) : Int)) hi ho
              (by rw [hsrc]; simp only [int32Max]; omega) (by rw [hsrc]; omega) (by omega)
            rw [h1]
            refine ⟨some th', rfl, rfl, ?_⟩
            intro th'' he
            cases he
            refine ⟨⟨hs', h2, h3⟩, h4.trans hsrc, h5.trans hoff, h7, ?_, (BlockHash.addAll_mask h1).trans hmk⟩
            rw [hsrc] at h8
            omega
        obtain ⟨th?', hadd1, hadd2, hadd3⟩ := hadd
        rw [hadd1]
        simp only
        obtain ⟨ops', q, h1, h2, h3, h4⟩ := ih (ne + n) (ne + n) th?' (calls ++ ops.map Op.call) (by simp only [kBlockSize] at *; omega) hadd3
          (Nat.le_refl _) (by omega) (fun c' h1 h2 => by omega)
        rw [hadd2] at h2 h3 h4
        refine ⟨ops ++ ops', q, ?_, hem.append h2, ?_, h4⟩
        · rw [h1, List.map_append, List.append_assoc]
        · rw [literals_append, hem.sizes]
          intro x hx c' h5 h6
          rcases List.mem_append.1 hx with hx | hx
          · obtain ⟨e1, e2⟩ := hlit x hx
            rw [e1] at h5 h6 ⊢
            exact hno c' h5 (by omega)
          · exact h3 x hx c' h5 h6

/-! ## Whole chunks -/

theorem init_ok {dict : Bytes} (hlen : dict.length ≤ int32Max) :
    ∃ e hashed, Engine.init dict = .ok (some e) ∧ e = ⟨dict, some hashed⟩ ∧ DictHash dict hashed := by
  obtain ⟨bh, hs, h1, h2, h3, h4, h5, h6⟩ := BlockHash.create_ok (off := 0) (populate := true) hlen
  rw [Engine.init, h1]
  exact ⟨_, bh, rfl, rfl, ⟨hs, h2, h3⟩, h4, h5, by simpa using h6, BlockHash.create_mask h1⟩

/-- The instructions for a whole chunk. -/
theorem encode_spec {dict target : Bytes} {hashed : BlockHash} {matching : Bool} (hd : DictHash dict hashed)
    (hlen : dict.length + target.length ≤ int32Max) (hne : target ≠ []) :
    ∃ ops q, Engine.encode ⟨dict, some hashed⟩ matching target =
        .ok ((ops ++ (if q < target.length then [Op.add (target.drop q)] else [])).map Op.call ++ [.output]) ∧
      Emits dict target matching 0 ops q ∧ q ≤ target.length ∧
      (∀ x ∈ literals 0 ops, ∀ c', x.1 ≤ c' → c' < x.1 + x.2 → NoneAt dict target matching x.1 c') ∧
      (∀ c', q ≤ c' → c' + kBlockSize ≤ target.length → NoneAt dict target matching q c') := by
  have hpos : target.length ≠ 0 := by simpa using hne
  have hlen' := hlen
  simp only [int32Max] at hlen'
  rw [Engine.encode]
  simp only
  rw [if_neg hpos]
  by_cases hsm : target.length < kBlockSize
  · rw [if_pos hsm]
    refine ⟨[], 0, ?_, .nil, by omega, by simp [literals], fun c' _ h => by omega⟩
    rw [addUnmatchedRemainder, if_pos (by omega), if_pos (by omega)]; rfl
  · rw [if_neg hsm, readBlock_eq (by omega)]
    simp only [bind, Except.bind]
    have hth : ∃ th?, createTargetHash ⟨dict, some hashed⟩ matching target = .ok th? ∧ th?.isSome = matching ∧
        ∀ th, th? = some th → TargetHash dict target 0 th := by
      cases matching with
      | false => exact ⟨none, rfl, rfl, by simp⟩
      | true =>
        obtain ⟨bh, hs, h1, h2, h3, h4, h5, h6⟩ := BlockHash.create_ok (source := target) (off := toInt32 dict.length)
          (populate := false) (by simp only [int32Max]; omega)
        rw [createTargetHash, if_pos rfl, h1]
        refine ⟨some bh, rfl, rfl, ?_⟩
        intro th he
        cases he
        simp only [Bool.false_eq_true, if_false] at h6
        refine ⟨⟨hs, h2, h3⟩, h4, by rw [h5, toInt32_of_lt (by omega)], by rw [h6]; simp only [kBlockSize]; omega, by omega,
          BlockHash.create_mask h1⟩
    obtain ⟨th?, h1, h2, h3⟩ := hth
    rw [h1]
    simp only
    obtain ⟨ops, q, h4, h5, h6, h7⟩ := encodeLoop_spec hd hlen (target.length + 1) 0 0 th? [] (by omega) h3 (Nat.le_refl _)
      (by omega) (fun c' _ h => by omega)
    rw [h4]
    rw [h2] at h5 h6 h7
    have hq := h5.le_length (by omega)
    refine ⟨ops, q, ?_, h5, hq, h6, h7⟩
    simp only [List.nil_append, List.map_append]
    congr 3
    rw [addUnmatchedRemainder, List.length_drop]
    split <;> split <;> first | rfl | omega

/-! ## The whole list of instructions -/

/-- The instructions for a chunk. -/
structure Whole (dict target : Bytes) (matching : Bool) (ops : List Op) : Prop where
  exec : execOps dict ops = dict ++ target
  emittable : ∀ pre op post, ops = pre ++ op :: post →
    Emittable dict.length matching (execOps dict pre).length op
  noMiss : ∀ x ∈ literals 0 ops, ∀ c', x.1 ≤ c' → c' < x.1 + x.2 → c' + kBlockSize ≤ target.length →
    NoneAt dict target matching x.1 c'
  noAddAdd : ∀ pre a b post, ops = pre ++ Op.add a :: b :: post → ∃ x n, b = .copy x n
  copies : ∀ pre a n post, ops = pre ++ .copy a n :: post → Copies dict target matching (sizes pre) a n
  left : ∀ pre lit a n post, ops = pre ++ .add lit :: .copy a n :: post → LeftStop dict target (sizes pre + lit.length) a

/-- Every COPY is one of `Copies`. -/
theorem Emits.copies {dict target : Bytes} {matching : Bool} {p q : Nat} {ops : List Op}
    (h : Emits dict target matching p ops q) :
    ∀ pre a n post, ops = pre ++ .copy a n :: post → Copies dict target matching (p + Spec.sizes pre) a n := by
  induction h with
  | nil => intro pre a n post he; simp at he
  | @copy p a' n' q ops hc _ ih =>
    intro pre a n post he
    cases pre with
    | nil =>
      simp only [List.nil_append, List.cons.injEq, Op.copy.injEq] at he
      obtain ⟨⟨rfl, rfl⟩, _⟩ := he
      exact hc
    | cons o pre =>
      simp only [List.cons_append, List.cons.injEq] at he
      have := ih pre a n post he.2
      rw [← he.1]
      simpa [Spec.sizes, Op.size, Nat.add_assoc] using this
  | @addCopy p k a' n' q ops hk hc _ _ ih =>
    intro pre a n post he
    have hin := hc.inTarget
    cases pre with
    | nil => simp at he
    | cons o pre =>
      simp only [List.cons_append, List.cons.injEq] at he
      have hk' : o.size = k := by
        rw [← he.1]
        simp only [Op.size, List.length_take, List.length_drop]
        omega
      cases pre with
      | nil =>
        simp only [List.nil_append, List.cons.injEq, Op.copy.injEq] at he
        obtain ⟨_, ⟨rfl, rfl⟩, _⟩ := he
        simpa [Spec.sizes, hk'] using hc
      | cons o' pre =>
        simp only [List.cons_append, List.cons.injEq] at he
        have := ih pre a n post he.2.2
        rw [← he.2.1]
        simpa [Spec.sizes, hk', show (Op.copy a' n').size = n' from rfl, Nat.add_assoc] using this

/-- Every COPY after an ADD stops at the left. -/
theorem Emits.left {dict target : Bytes} {matching : Bool} {p q : Nat} {ops : List Op}
    (h : Emits dict target matching p ops q) :
    ∀ pre lit a n post, ops = pre ++ .add lit :: .copy a n :: post → LeftStop dict target (p + Spec.sizes pre + lit.length) a := by
  induction h with
  | nil => intro pre lit a n post he; simp at he
  | @copy p a' n' q ops hc _ ih =>
    intro pre lit a n post he
    cases pre with
    | nil => simp at he
    | cons o pre =>
      simp only [List.cons_append, List.cons.injEq] at he
      have := ih pre lit a n post he.2
      rw [← he.1]
      simpa [Spec.sizes, Op.size, Nat.add_assoc] using this
  | @addCopy p k a' n' q ops hk hc hl _ ih =>
    intro pre lit a n post he
    have hin := hc.inTarget
    cases pre with
    | nil =>
      simp only [List.nil_append, List.cons.injEq, Op.copy.injEq, Op.add.injEq] at he
      obtain ⟨rfl, ⟨rfl, rfl⟩, _⟩ := he
      have : ((target.drop p).take k).length = k := by
        simp only [List.length_take, List.length_drop]; omega
      simpa [Spec.sizes, this] using hl
    | cons o pre =>
      simp only [List.cons_append, List.cons.injEq] at he
      have hk' : o.size = k := by
        rw [← he.1]
        simp only [Op.size, List.length_take, List.length_drop]
        omega
      cases pre with
      | nil => simp at he
      | cons o' pre =>
        simp only [List.cons_append, List.cons.injEq] at he
        have := ih pre lit a n post he.2.2
        rw [← he.2.1]
        simpa [Spec.sizes, hk', show (Op.copy a' n').size = n' from rfl, Nat.add_assoc] using this

theorem Emits.adjacent {dict target : Bytes} {matching : Bool} {p q : Nat} {ops : List Op} {rest : Bytes}
    (h : Emits dict target matching p ops q) :
    ∀ tail, (tail = [] ∨ tail = [Op.add rest]) → ∀ pre a b post, ops ++ tail = pre ++ Op.add a :: b :: post →
      ∃ x n, b = .copy x n := by
  intro tail ht
  induction h with
  | nil =>
    intro pre a b post he
    rcases ht with rfl | rfl
    · simp at he
    · have := congrArg List.length he
      simp at this
      omega
  | copy _ _ ih =>
    intro pre a b post he
    cases pre with
    | nil => simp at he
    | cons o pre =>
      simp only [List.cons_append, List.cons.injEq] at he
      exact ih pre a b post he.2
  | @addCopy p k x n q ops _ _ _ _ ih =>
    intro pre a b post he
    cases pre with
    | nil =>
      simp only [List.cons_append, List.nil_append, List.cons.injEq] at he
      exact ⟨x, n, he.2.1.symm⟩
    | cons o pre =>
      simp only [List.cons_append, List.cons.injEq] at he
      cases pre with
      | nil => simp at he
      | cons o pre =>
        simp only [List.cons_append, List.cons.injEq] at he
        exact ih pre a b post he.2.2

theorem whole_of_emits {dict target : Bytes} {matching : Bool} {ops : List Op} {q : Nat}
    (h : Emits dict target matching 0 ops q) (hq : q ≤ target.length)
    (h1 : ∀ x ∈ literals 0 ops, ∀ c', x.1 ≤ c' → c' < x.1 + x.2 → NoneAt dict target matching x.1 c')
    (h2 : ∀ c', q ≤ c' → c' + kBlockSize ≤ target.length → NoneAt dict target matching q c') :
    Whole dict target matching (ops ++ (if q < target.length then [Op.add (target.drop q)] else [])) := by
  have hex := h.exec
  rw [List.take_zero, List.append_nil] at hex
  refine ⟨?_, ?_, ?_, ?_, ?_, ?_⟩
  · rw [execOps, List.foldl_append]
    rw [execOps] at hex
    rw [hex]
    split
    · simp [Op.apply, List.append_assoc]
    · rw [List.foldl_nil, List.take_of_length_le (by omega)]
  · intro pre op post he
    rw [List.append_eq_append_iff] at he
    rcases he with ⟨as, h1, h2⟩ | ⟨bs, h1, h2⟩
    · split at h2
      · rename_i hlt
        cases as with
        | cons a as => simp at h2
        | nil =>
          simp at h2
          rw [← h2.1]
          intro h0
          have := congrArg List.length h0
          simp at this
          omega
      · simp at h2
    · cases bs with
      | nil =>
        simp only [List.nil_append] at h2
        split at h2
        · rename_i hlt
          simp at h2
          rw [h2.1]
          intro h0
          have := congrArg List.length h0
          simp at this
          omega
        · simp at h2
      | cons b bs =>
        simp only [List.cons_append, List.cons.injEq] at h2
        have := h.emittable pre bs op (by rw [h1, h2.1]) (by omega)
        rwa [List.take_zero, List.append_nil] at this
  · rw [literals_append, h.sizes]
    intro x hx c' h3 h4 h5
    rcases List.mem_append.1 hx with hx | hx
    · exact h1 x hx c' h3 h4
    · split at hx
      · simp only [literals, List.mem_cons, List.not_mem_nil, or_false] at hx
        subst hx
        exact h2 c' h3 h5
      · simp [literals] at hx
  · refine h.adjacent (rest := target.drop q) _ ?_
    split
    · exact Or.inr rfl
    · exact Or.inl rfl
  · intro pre a n post he
    have key := h.copies
    rw [List.append_eq_append_iff] at he
    rcases he with ⟨as, h1, h2⟩ | ⟨bs, h1, h2⟩
    · split at h2
      · cases as with
        | cons a as => simp at h2
        | nil => simp at h2
      · simp at h2
    · cases bs with
      | nil =>
        simp only [List.nil_append] at h2
        split at h2 <;> simp at h2
      | cons b bs =>
        simp only [List.cons_append, List.cons.injEq] at h2
        have := key pre a n bs (by rw [h1, h2.1])
        simpa using this
  · intro pre lit a n post he
    have key := h.left
    have he' : ops ++ (if q < target.length then [Op.add (target.drop q)] else []) = (pre ++ [.add lit]) ++ .copy a n :: post := by
      rw [he]; simp
    rw [List.append_eq_append_iff] at he'
    rcases he' with ⟨as, h1, h2⟩ | ⟨bs, h1, h2⟩
    · split at h2
      · cases as with
        | cons a as => simp at h2
        | nil => simp at h2
      · simp at h2
    · cases bs with
      | nil =>
        simp only [List.nil_append] at h2
        split at h2 <;> simp at h2
      | cons b bs =>
        simp only [List.cons_append, List.cons.injEq] at h2
        have := key pre lit a n bs (by rw [h1, h2.1]; simp)
        simpa using this

/-- The instructions for a chunk that is not empty. -/
theorem encode_whole {dict target : Bytes} {matching : Bool} (hlen : dict.length + target.length ≤ int32Max)
    (hne : target ≠ []) :
    ∃ e ops, Engine.init dict = .ok (some e) ∧ e.dictionary = dict ∧
      e.encode matching target = .ok (ops.map Op.call ++ [.output]) ∧ Whole dict target matching ops := by
  obtain ⟨e, hashed, h1, rfl, h3⟩ := init_ok (dict := dict) (by omega)
  obtain ⟨ops, q, h4, h5, h6, h7, h8⟩ := encode_spec (matching := matching) h3 hlen hne
  exact ⟨_, _, h1, rfl, h4, whole_of_emits h5 h6 h7 h8⟩

/-! ## A target equal to the dictionary -/

theorem encode_same {dict : Bytes} {matching : Bool} (hlen : dict.length + dict.length ≤ int32Max)
    (h32 : 32 ≤ dict.length) :
    ∃ e, Engine.init dict = .ok (some e) ∧
      e.encode matching dict = .ok [.copy 0 dict.length, .output] := by
  have hlen' := hlen
  simp only [int32Max] at hlen'
  obtain ⟨e, hashed, h1, rfl, hd⟩ := init_ok (dict := dict) (by omega)
  refine ⟨_, h1, ?_⟩
  rw [Engine.encode]
  simp only
  rw [if_neg (by omega), if_neg (by simp only [kBlockSize]; omega), readBlock_eq (by simp only [kBlockSize]; omega)]
  have hth : ∃ th?, createTargetHash ⟨dict, some hashed⟩ matching dict = .ok th? ∧
      ∀ th, th? = some th → (∃ hs, th.Inv hs) ∧ th.added = 0 ∧ th.source = dict ∧ th.startingOffset = dict.length := by
    cases matching with
    | false => exact ⟨none, rfl, by simp⟩
    | true =>
      obtain ⟨bh, hs, h1, h2, h3, h4, h5, h6⟩ := BlockHash.create_ok (source := dict) (off := toInt32 dict.length)
        (populate := false) (by simp only [int32Max]; omega)
      rw [createTargetHash, if_pos rfl, h1]
      refine ⟨some bh, rfl, ?_⟩
      intro th he
      cases he
      exact ⟨⟨hs, h2⟩, by simpa using h6, h4, by rw [h5, toInt32_of_lt (by omega)]⟩
  obtain ⟨th?, hth1, hth2⟩ := hth
  rw [hth1]
  simp only [bind, Except.bind]
  -- the search in the dictionary
  obtain ⟨hs, hdi, hdo⟩ := hd.inv
  have hsrc := hd.source
  have hc' : 0 + kBlockSize ≤ dict.length := by simp only [kBlockSize]; omega
  obtain ⟨b1, hb1, _, hor1, hfirst, _⟩ := BlockHash.findBestMatch_spec hdi hd.offset (by rw [hsrc]; simp only [int32Max]; omega)
    (show dict.length ≤ int32Max by simp only [int32Max]; omega) hc'
    (RollingHash.hash ((dict.drop 0).take kBlockSize)) {}
  have hadd : hs.length = dict.length / kBlockSize := by rw [hdi.added, hd.full]
  have hpos : 0 < hs.length := by rw [hadd]; simp only [kBlockSize]; omega
  have hslot : BlockHash.slot hashed.mask hs 0 = hashed.index (RollingHash.hash ((dict.drop 0).take kBlockSize)) := by
    rw [BlockHash.slot, List.getD_eq_getElem?_getD, hdo 0 hpos, hsrc]
    rfl
  have hbk : ∃ post, BlockHash.bucket hashed.mask hs (hashed.index (RollingHash.hash ((dict.drop 0).take kBlockSize)))
      = [] ++ 0 :: post := by
    rw [BlockHash.bucket]
    obtain ⟨m, hm⟩ : ∃ m, hs.length = m + 1 := ⟨hs.length - 1, by omega⟩
    rw [hm, List.range_succ_eq_map, List.filter_cons_of_pos (by simpa using hslot)]
    exact ⟨_, rfl⟩
  obtain ⟨post, hbk⟩ := hbk
  have hext : BlockHash.Extension hashed.source dict 0 0 0 0 dict.length := by
    rw [hsrc]
    exact ⟨⟨by omega, by omega, by omega, by omega, rfl⟩, ⟨Or.inl rfl, Or.inl (by omega)⟩, rfl⟩
  have hsz := hfirst [] 0 post hbk (by simp) (by simp) (by rw [hsrc]; rfl) 0 0 dict.length hext
  have hb1e : b1 = ⟨dict.length, 0, 0⟩ := by
    rcases hor1 with rfl | ⟨n, s, t, size, _, h2, _, rfl⟩
    · change dict.length ≤ 0 at hsz; omega
    · have a1 := h2.isMatch.inSource
      have a2 := h2.isMatch.inTarget
      rw [hsrc] at a1
      simp only at hsz
      have e1 : size = dict.length := by omega
      have e2 : s = 0 := by omega
      have e3 : t = 0 := by omega
      subst e1 e2 e3
      rfl
  have hbest : bestMatch hashed th? (RollingHash.hash ((dict.drop 0).take kBlockSize)) dict 0 = .ok ⟨dict.length, 0, 0⟩ := by
    rw [bestMatch, hb1, hb1e]
    cases th? with
    | none => rfl
    | some th =>
      obtain ⟨⟨hs', hi'⟩, hz, hs2, ho2⟩ := hth2 th rfl
      obtain ⟨b2, hb2, _, hor2, _⟩ := BlockHash.findBestMatch_spec hi' ho2 (by rw [hs2]; exact hlen)
        (show dict.length ≤ int32Max by simp only [int32Max]; omega) hc'
        (RollingHash.hash ((dict.drop 0).take kBlockSize)) ⟨dict.length, 0, 0⟩
      simp only [hb2]
      rcases hor2 with rfl | ⟨n, s, t, size, h1, _⟩
      · rfl
      · omega
  rw [encodeLoop, encodeCopyForBestMatch]
  simp only [List.drop_zero, Nat.sub_self] at hbest ⊢
  simp only [hbest, bind, Except.bind]
  rw [if_neg (by simp only [kMinimumMatchSize]; omega)]
  simp only [Int.toNat_zero, Nat.zero_add, gt_iff_lt, Int.lt_irrefl, if_false]
  rw [if_pos (by omega), if_pos (by simp only [kBlockSize]; omega)]
  simp [addUnmatchedRemainder]

end Engine
end Vcd
