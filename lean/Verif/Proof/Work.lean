import Verif.Model.Work
import Verif.Proof.Engine

/-!
# The counting functions: same results, and bounds
-/

namespace Vcd

/-- The result without the count. -/
def Counted.val {α : Type} (x : Counted α) : Except Fault α := x.map Prod.fst

namespace Counted

theorem val_ok {α : Type} (a : α) (w : Work) : Counted.val (.ok (a, w)) = .ok a := rfl
theorem val_error {α : Type} (e : Fault) : Counted.val (α := α) (.error e) = .error e := rfl

theorem val_after {α : Type} (w : Work) (x : Counted α) : (after w x).val = x.val := by
  cases x <;> rfl

theorem val_free {α : Type} (x : Except Fault α) : (free x).val = x := by
  cases x <;> rfl

theorem val_andThen {α β : Type} (x : Counted α) (f : α → Counted β) :
    (andThen x f).val = x.val.bind fun a => (f a).val := by
  rcases x with e | ⟨a, w⟩
  · rfl
  · exact val_after w (f a)

theorem val_map {α β : Type} (x : Counted α) (f : α → β) :
    Counted.val (x.map fun r => (f r.1, r.2)) = x.val.map f := by
  cases x <;> rfl

theorem val_ite {α : Type} (p : Prop) [Decidable p] (x y : Counted α) :
    Counted.val (if p then x else y) = if p then x.val else y.val := by split <;> rfl

end Counted

open Counted

namespace BlockHash

theorem addBlockW_val (bh : BlockHash) (h : UInt32) : (bh.addBlockW h).val = bh.addBlock h := by
  simp only [addBlockW, val_after, val_free]

theorem addBlocksLoopW_val (l : Int) (fuel : Nat) (bh : BlockHash) (pos : Nat) :
    (addBlocksLoopW l fuel bh pos).val = addBlocksLoop l fuel bh pos := by
  induction fuel generalizing bh pos with
  | zero => rfl
  | succ fuel ih =>
    simp only [addBlocksLoopW, addBlocksLoop, val_ite, val_andThen, val_free, val_after, addBlockW_val, ih]
    rfl

theorem addAllBlocksThroughIndexW_val (bh : BlockHash) (i : Int) :
    (bh.addAllBlocksThroughIndexW i).val = bh.addAllBlocksThroughIndex i := by
  simp only [addAllBlocksThroughIndexW, addAllBlocksThroughIndex, val_ite, addBlocksLoopW_val]
  rfl

theorem addOneIndexHashW_val (bh : BlockHash) (i : Nat) (h : UInt32) :
    (bh.addOneIndexHashW i h).val = bh.addOneIndexHash i h := by
  simp only [addOneIndexHashW, addOneIndexHash, val_ite, addBlockW_val]
  rfl

theorem createW_val (source : Bytes) (o : Int) (populate : Bool) :
    (createW source o populate).val = create source o populate := by
  simp only [createW, create, val_ite, val_map _ some, addAllBlocksThroughIndexW_val]
  rfl

theorem skipNonMatchingW_val (bh : BlockHash) (block : Bytes) (probes : Nat) (n : Option Nat) :
    (bh.skipNonMatchingW block probes n).val = bh.skipNonMatching block probes n := by
  induction probes generalizing n with
  | zero =>
    cases n with
    | none => simp [skipNonMatchingW, skipNonMatching, val_ok]
    | some n =>
      simp only [skipNonMatchingW, skipNonMatching, val_ite, val_andThen, val_free, val_after]
      rfl
  | succ probes ih =>
    cases n with
    | none => simp [skipNonMatchingW, skipNonMatching, val_ok]
    | some n =>
      simp only [skipNonMatchingW, skipNonMatching, val_ite, val_andThen, val_free, val_after]
      cases bh.next[n]? with
      | none => rfl
      | some n' => simp only [ih]; rfl

theorem firstMatchingBlockW_val (bh : BlockHash) (h : UInt32) (block : Bytes) :
    (bh.firstMatchingBlockW h block).val = bh.firstMatchingBlock h block := by
  simp only [firstMatchingBlockW, firstMatchingBlock]
  cases bh.table[bh.index h]? with
  | none => rfl
  | some n => exact skipNonMatchingW_val ..

theorem nextMatchingBlockW_val (bh : BlockHash) (n : Nat) (block : Bytes) :
    (bh.nextMatchingBlockW n block).val = bh.nextMatchingBlock n block := by
  simp only [nextMatchingBlockW, nextMatchingBlock, val_ite]
  split
  · rfl
  · cases bh.next[n]? with
    | none => rfl
    | some n' => exact skipNonMatchingW_val ..

theorem matchingBytesToLeftW_val (source target : Bytes) (s t max : Nat) :
    (matchingBytesToLeftW source target s t max).val = matchingBytesToLeft source target s t max := by
  induction max generalizing s t with
  | zero => simp [matchingBytesToLeftW, matchingBytesToLeft, val_ok]
  | succ max ih =>
    cases s with
    | zero => rfl
    | succ s =>
      cases t with
      | zero => rfl
      | succ t =>
        simp only [matchingBytesToLeftW, matchingBytesToLeft]
        cases source[s]? <;> cases target[t]? <;> try rfl
        simp only [val_after, val_ite, val_map _ (· + 1), ih]; rfl

theorem matchingBytesToRightW_val (source target : Bytes) (s t max : Nat) :
    (matchingBytesToRightW source target s t max).val = matchingBytesToRight source target s t max := by
  induction max generalizing s t with
  | zero => simp [matchingBytesToRightW, matchingBytesToRight, val_ok]
  | succ max ih =>
    simp only [matchingBytesToRightW, matchingBytesToRight]
    cases source[s]? <;> cases target[t]? <;> try rfl
    simp only [val_after, val_ite, val_map _ (· + 1), ih]; rfl

theorem extendMatchW_val (bh : BlockHash) (target : Bytes) (candidate n : Nat) (best : Match) :
    (bh.extendMatchW target candidate n best).val = bh.extendMatch target candidate n best := by
  simp only [extendMatchW, extendMatch, val_andThen, matchingBytesToLeftW_val, matchingBytesToRightW_val, val_ite]
  rfl

theorem bestMatchLoopW_val (bh : BlockHash) (target block : Bytes) (candidate matchesLeft : Nat) (n : Option Nat)
    (best : Match) :
    (bh.bestMatchLoopW target block candidate matchesLeft n best).val =
      bh.bestMatchLoop target block candidate matchesLeft n best := by
  induction matchesLeft generalizing n best with
  | zero => cases n <;> simp [bestMatchLoopW, bestMatchLoop, val_ok]
  | succ k ih =>
    cases n with
    | none => simp [bestMatchLoopW, bestMatchLoop, val_ok]
    | some n =>
      simp only [bestMatchLoopW, bestMatchLoop, val_andThen, extendMatchW_val, nextMatchingBlockW_val, ih]
      rfl

theorem findBestMatchW_val (bh : BlockHash) (h : UInt32) (target : Bytes) (candidate : Nat) (best : Match) :
    (bh.findBestMatchW h target candidate best).val = bh.findBestMatch h target candidate best := by
  simp only [findBestMatchW, findBestMatch, val_andThen, val_free, firstMatchingBlockW_val, bestMatchLoopW_val]
  rfl

end BlockHash

namespace Engine

theorem initW_val (dictionary : Bytes) : (initW dictionary).val = init dictionary := by
  rw [init, ← BlockHash.createW_val]
  unfold initW
  cases BlockHash.createW dictionary 0 true <;> rfl

theorem bestMatchW_val (hashed : BlockHash) (th : Option BlockHash) (h : UInt32) (target : Bytes) (candidate : Nat) :
    (bestMatchW hashed th h target candidate).val = bestMatch hashed th h target candidate := by
  simp only [bestMatchW, bestMatch, val_andThen, BlockHash.findBestMatchW_val]
  cases hashed.findBestMatch h target candidate {} with
  | error e => rfl
  | ok best =>
    cases th with
    | none => rfl
    | some th => exact BlockHash.findBestMatchW_val ..

theorem encodeCopyForBestMatchW_val (hashed : BlockHash) (th : Option BlockHash) (h : UInt32) (target : Bytes)
    (candidate : Nat) :
    (encodeCopyForBestMatchW hashed th h target candidate).val = encodeCopyForBestMatch hashed th h target candidate := by
  simp only [encodeCopyForBestMatchW, encodeCopyForBestMatch, val_after, val_andThen, bestMatchW_val, val_ite]
  rfl

theorem updateTargetHashW_val (th : Option BlockHash) (f : BlockHash → Counted BlockHash)
    (g : BlockHash → Except Fault BlockHash) (hf : ∀ bh, (f bh).val = g bh) :
    (updateTargetHashW th f).val = updateTargetHash th g := by
  cases th with
  | none => rfl
  | some th => simp only [updateTargetHashW, updateTargetHash, val_map _ some, hf]

theorem encodeLoopW_val (hashed : BlockHash) (target : Bytes) (fuel next candidate : Nat) (h : UInt32)
    (th : Option BlockHash) (calls : List CoderCall) :
    (encodeLoopW hashed target fuel next candidate h th calls).val =
      encodeLoop hashed target fuel next candidate h th calls := by
  induction fuel generalizing next candidate h th calls with
  | zero => rfl
  | succ fuel ih =>
    simp only [encodeLoopW, encodeLoop, val_andThen, encodeCopyForBestMatchW_val, val_ite, val_free, val_after,
      updateTargetHashW_val _ _ _ (fun bh => BlockHash.addAllBlocksThroughIndexW_val bh _),
      updateTargetHashW_val _ _ _ (fun bh => BlockHash.addOneIndexHashW_val bh _ _), ih]
    congr 1
    funext r
    split
    · rfl
    · split
      · rfl
      · congr 1
        funext th
        cases target[candidate]? <;> cases target[candidate + kBlockSize]? <;>
          simp only [val_after, ih] <;> rfl

theorem createTargetHashW_val (e : Engine) (matching : Bool) (target : Bytes) :
    (createTargetHashW e matching target).val = createTargetHash e matching target := by
  simp only [createTargetHashW, createTargetHash, val_ite, ← BlockHash.createW_val]
  split
  · rcases BlockHash.createW target (toInt32 e.dictionary.length) false with f | ⟨_ | th, w⟩ <;> rfl
  · rfl

theorem encodeW_val (e : Engine) (matching : Bool) (target : Bytes) :
    (e.encodeW matching target).val = e.encode matching target := by
  simp only [encodeW, encode]
  cases e.hashed with
  | none => rfl
  | some hashed =>
    simp only [val_ite, val_andThen, createTargetHashW_val, val_after, val_free, encodeLoopW_val]
    rfl

end Engine
/-! ## Bounds -/

/-- All counts are at most those of the other. -/
def Work.Le (a b : Work) : Prop :=
  a.searches ≤ b.searches ∧ a.blocks ≤ b.blocks ∧ a.bytes ≤ b.bytes ∧ a.hashes ≤ b.hashes ∧ a.adds ≤ b.adds

theorem Work.add_def (a b : Work) : a + b = { searches := a.searches + b.searches, blocks := a.blocks + b.blocks, bytes := a.bytes + b.bytes, hashes := a.hashes + b.hashes, adds := a.adds + b.adds } := rfl

namespace Counted

theorem after_ok {α : Type} {w0 w : Work} {x : Counted α} {a : α} (h : after w0 x = .ok (a, w)) :
    ∃ w2, x = .ok (a, w2) ∧ w = w0 + w2 := by
  rcases x with e | ⟨b, w2⟩
  · cases h
  · simp only [after, Except.map, Except.ok.injEq, Prod.mk.injEq] at h
    obtain ⟨rfl, rfl⟩ := h
    exact ⟨w2, rfl, rfl⟩

theorem andThen_ok {α β : Type} {x : Counted α} {f : α → Counted β} {b : β} {w : Work} (h : andThen x f = .ok (b, w)) :
    ∃ a w1 w2, x = .ok (a, w1) ∧ f a = .ok (b, w2) ∧ w = w1 + w2 := by
  rcases x with e | ⟨a, w1⟩
  · cases h
  · obtain ⟨w2, h1, h2⟩ := after_ok h
    exact ⟨a, w1, w2, rfl, h1, h2⟩

theorem free_ok {α : Type} {x : Except Fault α} {a : α} {w : Work} (h : free x = .ok (a, w)) : x = .ok a ∧ w = {} := by
  rcases x with e | b
  · cases h
  · simp only [free, Except.map, Except.ok.injEq, Prod.mk.injEq] at h
    exact ⟨by rw [h.1], h.2.symm⟩

theorem map_ok {α β : Type} {x : Counted α} {f : α → β} {b : β} {w : Work}
    (h : (x.map fun r => (f r.1, r.2)) = .ok (b, w)) : ∃ a, x = .ok (a, w) ∧ b = f a := by
  rcases x with e | ⟨a, w1⟩
  · cases h
  · simp only [Except.map, Except.ok.injEq, Prod.mk.injEq] at h
    obtain ⟨rfl, rfl⟩ := h
    exact ⟨a, rfl, rfl⟩

theorem ok_inj {α : Type} {a b : α} {v w : Work} (h : (Except.ok (a, v) : Counted α) = .ok (b, w)) : b = a ∧ w = v := by
  simp only [Except.ok.injEq, Prod.mk.injEq] at h
  exact ⟨h.1.symm, h.2.symm⟩

end Counted

namespace BlockHash

theorem skipNonMatchingW_work {bh : BlockHash} {block : Bytes} {probes : Nat} {n r : Option Nat} {w : Work}
    (h : bh.skipNonMatchingW block probes n = .ok (r, w)) : w.Le { blocks := probes + 1 } := by
  induction probes generalizing n w with
  | zero =>
    cases n with
    | none => simp [skipNonMatchingW] at h; simp [← h.2, Work.Le]
    | some n =>
      simp only [skipNonMatchingW] at h
      obtain ⟨_, w1, w2, h1, h2, rfl⟩ := andThen_ok h
      obtain ⟨_, rfl⟩ := free_ok h1
      obtain ⟨w3, h3, rfl⟩ := after_ok h2
      have : w3 = {} := by
        split at h3 <;> exact (ok_inj h3).2
      subst this
      simp [Work.Le, Work.add_def]
  | succ probes ih =>
    cases n with
    | none => simp [skipNonMatchingW] at h; simp [← h.2, Work.Le]
    | some n =>
      simp only [skipNonMatchingW] at h
      obtain ⟨_, w1, w2, h1, h2, rfl⟩ := andThen_ok h
      obtain ⟨_, rfl⟩ := free_ok h1
      obtain ⟨w3, h3, rfl⟩ := after_ok h2
      split at h3
      · obtain ⟨_, rfl⟩ := ok_inj h3
        simp [Work.Le, Work.add_def]
      · cases hn : bh.next[n]? with
        | none => rw [hn] at h3; cases h3
        | some n' =>
          rw [hn] at h3
          have := ih h3
          simp only [Work.Le, Work.add_def] at this ⊢
          omega

theorem firstMatchingBlockW_work {bh : BlockHash} {h : UInt32} {block : Bytes} {r : Option Nat} {w : Work}
    (hr : bh.firstMatchingBlockW h block = .ok (r, w)) : w.Le { blocks := 17 } := by
  simp only [firstMatchingBlockW] at hr
  cases hn : bh.table[bh.index h]? with
  | none => rw [hn] at hr; cases hr
  | some n' =>
    rw [hn] at hr
    exact skipNonMatchingW_work hr

theorem nextMatchingBlockW_work {bh : BlockHash} {n : Nat} {block : Bytes} {r : Option Nat} {w : Work}
    (hr : bh.nextMatchingBlockW n block = .ok (r, w)) : w.Le { blocks := 17 } := by
  simp only [nextMatchingBlockW] at hr
  split at hr
  · cases hr
  · cases hn : bh.next[n]? with
    | none => rw [hn] at hr; cases hr
    | some n' =>
      rw [hn] at hr
      exact skipNonMatchingW_work hr

theorem matchingBytesToLeftW_work {source target : Bytes} {s t max r : Nat} {w : Work}
    (h : matchingBytesToLeftW source target s t max = .ok (r, w)) : r ≤ t ∧ w.Le { bytes := r + 1 } := by
  induction max generalizing s t r w with
  | zero =>
    rw [show matchingBytesToLeftW source target s t 0 = .ok (0, {}) by cases s <;> cases t <;> rfl] at h
    obtain ⟨rfl, rfl⟩ := ok_inj h
    simp [Work.Le]
  | succ max ih =>
    cases s with
    | zero => cases h
    | succ s =>
      cases t with
      | zero => cases h
      | succ t =>
        simp only [matchingBytesToLeftW] at h
        cases hs : source[s]? with
        | none => rw [hs] at h; cases h
        | some a =>
          cases ht : target[t]? with
          | none => rw [hs, ht] at h; cases h
          | some b =>
            rw [hs, ht] at h
            obtain ⟨w2, h2, rfl⟩ := after_ok h
            split at h2
            · obtain ⟨rfl, rfl⟩ := ok_inj h2
              simp [Work.Le, Work.add_def]
            · obtain ⟨r', h3, rfl⟩ := map_ok (f := (· + 1)) h2
              obtain ⟨k1, k2⟩ := ih h3
              simp only [Work.Le, Work.add_def] at k2 ⊢
              omega

theorem matchingBytesToRightW_work {source target : Bytes} {s t max r : Nat} {w : Work}
    (h : matchingBytesToRightW source target s t max = .ok (r, w)) (ht : t ≤ target.length) :
    t + r ≤ target.length ∧ w.Le { bytes := r + 1 } := by
  induction max generalizing s t r w with
  | zero =>
    rw [show matchingBytesToRightW source target s t 0 = .ok (0, {}) by rfl] at h
    obtain ⟨rfl, rfl⟩ := ok_inj h
    simp [Work.Le, ht]
  | succ max ih =>
    simp only [matchingBytesToRightW] at h
    cases hs : source[s]? with
    | none => rw [hs] at h; cases h
    | some a =>
      cases hb : target[t]? with
      | none => rw [hs, hb] at h; cases h
      | some b =>
        rw [hs, hb] at h
        have hlt : t < target.length := (List.getElem?_eq_some_iff.1 hb).1
        obtain ⟨w2, h2, rfl⟩ := after_ok h
        split at h2
        · obtain ⟨r', h3, rfl⟩ := map_ok (f := (· + 1)) h2
          obtain ⟨k1, k2⟩ := ih h3 (by omega)
          simp only [Work.Le, Work.add_def] at k2 ⊢
          omega
        · obtain ⟨rfl, rfl⟩ := ok_inj h2
          simp [Work.Le, Work.add_def, ht]

/-- A match around the block at `candidate`, inside the target. -/
def Around (target : Bytes) (candidate : Nat) (m : Match) : Prop :=
  ∃ t : Nat, m.targetOffset = t ∧ candidate + kBlockSize ≤ t + m.size ∧ t + m.size ≤ target.length

theorem extendMatchW_work {bh : BlockHash} {target : Bytes} {candidate n : Nat} {best r : Match} {w : Work}
    (h : bh.extendMatchW target candidate n best = .ok (r, w)) (hc : candidate + kBlockSize ≤ target.length) :
    best.size ≤ r.size ∧ w.Le { bytes := r.size } ∧ (r = best ∨ Around target candidate r) := by
  simp only [extendMatchW] at h
  obtain ⟨left, w1, w2, h1, h2, rfl⟩ := andThen_ok h
  obtain ⟨right, w3, w4, h3, h4, rfl⟩ := andThen_ok h2
  obtain ⟨l1, l2⟩ := matchingBytesToLeftW_work h1
  obtain ⟨r1, r2⟩ := matchingBytesToRightW_work h3 hc
  split at h4
  · cases h4
  · obtain ⟨rfl, rfl⟩ := ok_inj h4
    have hk : kBlockSize = 16 := rfl
    simp only [Work.Le, Work.add_def, Match.replaceIfBetter] at l2 r2 ⊢
    split
    · refine ⟨by simp only; omega, by simp only; omega, .inr ⟨candidate - left, rfl, ?_, ?_⟩⟩ <;> simp only <;> omega
    · exact ⟨Nat.le_refl _, by omega, .inl rfl⟩

theorem bestMatchLoopW_work {bh : BlockHash} {target block : Bytes} {candidate : Nat} {matchesLeft : Nat} {n : Option Nat}
    {best r : Match} {w : Work} (h : bh.bestMatchLoopW target block candidate matchesLeft n best = .ok (r, w))
    (hc : candidate + kBlockSize ≤ target.length) :
    best.size ≤ r.size ∧ w.Le { blocks := 17 * matchesLeft, bytes := matchesLeft * r.size } ∧
      (r = best ∨ Around target candidate r) := by
  induction matchesLeft generalizing n best w with
  | zero =>
    rw [show bh.bestMatchLoopW target block candidate 0 n best = .ok (best, {}) by cases n <;> rfl] at h
    obtain ⟨rfl, rfl⟩ := ok_inj h
    simp [Work.Le]
  | succ k ih =>
    cases n with
    | none =>
      rw [show bh.bestMatchLoopW target block candidate (k + 1) none best = .ok (best, {}) by rfl] at h
      obtain ⟨rfl, rfl⟩ := ok_inj h
      simp [Work.Le]
    | some n =>
      simp only [bestMatchLoopW] at h
      obtain ⟨b1, w1, w2, h1, h2, rfl⟩ := andThen_ok h
      obtain ⟨n', w3, w4, h3, h4, rfl⟩ := andThen_ok h2
      obtain ⟨e1, e2, e3⟩ := extendMatchW_work h1 hc
      have f1 := nextMatchingBlockW_work h3
      obtain ⟨g1, g2, g3⟩ := ih h4
      refine ⟨by omega, ?_, ?_⟩
      · simp only [Work.Le, Work.add_def, Nat.succ_mul] at e2 f1 g2 ⊢
        omega
      · rcases g3 with rfl | g3
        · exact e3
        · exact .inr g3

theorem readBlock_inside {data b : Bytes} {p : Nat} (h : readBlock data p = .ok b) : p + kBlockSize ≤ data.length := by
  rw [readBlock] at h
  split at h
  · assumption
  · cases h

theorem findBestMatchW_work {bh : BlockHash} {hv : UInt32} {target : Bytes} {candidate : Nat} {best r : Match} {w : Work}
    (h : bh.findBestMatchW hv target candidate best = .ok (r, w)) :
    best.size ≤ r.size ∧ w.Le { blocks := 1105, bytes := 64 * r.size } ∧ (r = best ∨ Around target candidate r) := by
  simp only [findBestMatchW] at h
  obtain ⟨block, w1, w2, h1, h2, rfl⟩ := andThen_ok h
  obtain ⟨h1', rfl⟩ := free_ok h1
  obtain ⟨n, w3, w4, h3, h4, rfl⟩ := andThen_ok h2
  have f := firstMatchingBlockW_work h3
  obtain ⟨g1, g2, g3⟩ := bestMatchLoopW_work h4 (readBlock_inside h1')
  refine ⟨g1, ?_, g3⟩
  simp only [kMaxMatchesToCheck] at g2
  simp only [Work.Le, Work.add_def] at f g2 ⊢
  omega

/-- The sizes of the three tables. -/
def room (bh : BlockHash) : Nat × Nat × Nat := (bh.table.length, bh.next.length, bh.last.length)

/-- A block that could be entered. -/
theorem addBlockW_work {bh r : BlockHash} {h : UInt32} {w : Work} (hr : bh.addBlockW h = .ok (r, w)) :
    w = { adds := 1 } ∧ r.source = bh.source ∧ r.added = bh.added + 1 ∧ r.added ≤ r.source.length / kBlockSize ∧
      r.room = bh.room := by
  simp only [addBlockW] at hr
  obtain ⟨w2, h2, rfl⟩ := after_ok hr
  obtain ⟨h3, rfl⟩ := free_ok h2
  refine ⟨rfl, ?_⟩
  rw [addBlock] at h3
  split at h3
  · cases h3
  split at h3
  · cases h3
  rename_i hlt
  simp only [numBlocks] at hlt
  split at h3
  · split at h3
    · simp only [Except.ok.injEq] at h3
      subst h3
      exact ⟨rfl, rfl, by simp only; omega, by simp [room]⟩
    · cases h3
  · split at h3
    · split at h3
      · simp only [Except.ok.injEq] at h3
        subst h3
        exact ⟨rfl, rfl, by simp only; omega, by simp [room]⟩
      · cases h3
      · cases h3
    · cases h3
  · cases h3
  · cases h3

/-- What entering blocks does to the counts. -/
def Entered (bh r : BlockHash) (w : Work) : Prop :=
  r.source = bh.source ∧ r.added = bh.added + w.adds ∧ (w.adds = 0 ∨ r.added ≤ r.source.length / kBlockSize) ∧
    w.Le { hashes := w.adds, adds := w.adds } ∧ r.room = bh.room

theorem addBlocksLoopW_work {l : Int} {fuel : Nat} {bh r : BlockHash} {pos : Nat} {w : Work}
    (h : addBlocksLoopW l fuel bh pos = .ok (r, w)) : Entered bh r w := by
  induction fuel generalizing bh pos w with
  | zero => cases h
  | succ fuel ih =>
    simp only [addBlocksLoopW] at h
    split at h
    · obtain ⟨block, w1, w2, h1, h2, rfl⟩ := andThen_ok h
      obtain ⟨_, rfl⟩ := free_ok h1
      obtain ⟨b1, w3, w4, h3, h4, rfl⟩ := andThen_ok h2
      obtain ⟨w5, h5, rfl⟩ := after_ok h3
      obtain ⟨rfl, a1, a2, a3, a4⟩ := addBlockW_work h5
      obtain ⟨g1, g2, g3, g4, g5⟩ := ih h4
      simp only [Entered, Work.Le, Work.add_def] at g1 g2 g3 g4 ⊢
      rw [g1] at g3 ⊢
      exact ⟨a1, by omega, by omega, by omega, g5.trans a4⟩
    · obtain ⟨rfl, rfl⟩ := ok_inj h
      simp [Entered, Work.Le]

theorem addAllBlocksThroughIndexW_work {bh r : BlockHash} {i : Int} {w : Work}
    (h : bh.addAllBlocksThroughIndexW i = .ok (r, w)) : Entered bh r w := by
  simp only [addAllBlocksThroughIndexW] at h
  split at h
  · cases h
  split at h
  · cases h
  split at h
  · obtain ⟨rfl, rfl⟩ := ok_inj h
    simp [Entered, Work.Le]
  · exact addBlocksLoopW_work h

theorem addOneIndexHashW_work {bh r : BlockHash} {i : Nat} {hv : UInt32} {w : Work}
    (h : bh.addOneIndexHashW i hv = .ok (r, w)) : Entered bh r w := by
  simp only [addOneIndexHashW] at h
  split at h
  · obtain ⟨rfl, a1, a2, a3, a4⟩ := addBlockW_work h
    exact ⟨a1, a2, .inr a3, by simp [Work.Le], a4⟩
  · obtain ⟨rfl, rfl⟩ := ok_inj h
    simp [Entered, Work.Le]

theorem createW_work {source : Bytes} {off : Int} {populate : Bool} {bh : BlockHash} {w : Work}
    (h : createW source off populate = .ok (some bh, w)) :
    w.Le { hashes := w.adds, adds := source.length / kBlockSize } ∧ (populate = false → w = {}) ∧ bh.added = w.adds ∧
      bh.source = source ∧
      bh.room = (calcTableSize source.length, source.length / kBlockSize, source.length / kBlockSize) := by
  simp only [createW] at h
  split at h
  · cases h
  · split at h
    · rename_i hp
      obtain ⟨a, h1, e⟩ := map_ok (f := some) h
      cases e
      obtain ⟨g1, g2, g3, g4, g5⟩ := addAllBlocksThroughIndexW_work h1
      simp only [Work.Le] at g4 ⊢
      simp only [Nat.zero_add] at g2
      rw [g1] at g3
      have hk : kBlockSize = 16 := rfl
      simp only [hk] at g3 ⊢
      refine ⟨by omega, fun hf => absurd hp (by simp [hf]), g2, g1, ?_⟩
      rw [g5]
      simp [room, hk]
    · obtain ⟨e, rfl⟩ := ok_inj h
      cases e
      simp [Work.Le, room]

end BlockHash

namespace Engine

/-- The number of tables that are searched. -/
def tables (th : Option BlockHash) : Nat := if th.isSome then 2 else 1

theorem bestMatchW_work {hashed : BlockHash} {th : Option BlockHash} {h : UInt32} {target : Bytes} {candidate : Nat}
    {r : Match} {w : Work} (hr : bestMatchW hashed th h target candidate = .ok (r, w)) :
    w.Le { blocks := 1105 * tables th, bytes := 64 * tables th * r.size } ∧
      (r.size = 0 ∨ BlockHash.Around target candidate r) := by
  simp only [bestMatchW] at hr
  obtain ⟨b1, w1, w2, h1, h2, rfl⟩ := andThen_ok hr
  obtain ⟨g1, g2, g3⟩ := BlockHash.findBestMatchW_work h1
  have g3' : b1.size = 0 ∨ BlockHash.Around target candidate b1 := by
    rcases g3 with rfl | g3
    · exact .inl rfl
    · exact .inr g3
  cases th with
  | none =>
    obtain ⟨rfl, rfl⟩ := ok_inj h2
    refine ⟨?_, g3'⟩
    simp only [Work.Le, Work.add_def, tables] at g2 ⊢
    simpa using g2
  | some th =>
    obtain ⟨k1, k2, k3⟩ := BlockHash.findBestMatchW_work h2
    refine ⟨?_, ?_⟩
    · simp only [Work.Le, Work.add_def, tables, Option.isSome, if_true] at g2 k2 ⊢
      omega
    · rcases k3 with rfl | k3
      · exact g3'
      · exact .inr k3

theorem encodeCopyForBestMatchW_work {hashed : BlockHash} {th : Option BlockHash} {h : UInt32} {target : Bytes}
    {candidate : Nat} {r : Nat × List CoderCall} {w : Work}
    (hr : encodeCopyForBestMatchW hashed th h target candidate = .ok (r, w)) :
    (r.1 = 0 ∧ r.2 = [] ∧ w.Le { searches := 1, blocks := 1105 * tables th, bytes := 64 * tables th * 31 } ∧ 1 ≤ w.searches) ∨
    (w.Le { searches := 1, blocks := 1105 * tables th, bytes := 64 * tables th * r.1 } ∧ 1 ≤ w.searches ∧
      candidate + kBlockSize ≤ r.1 ∧ r.1 ≤ target.length ∧ 16 * r.2.length ≤ r.1) := by
  simp only [encodeCopyForBestMatchW] at hr
  obtain ⟨w0, h0, rfl⟩ := after_ok hr
  obtain ⟨best, w1, w2, h1, h2, rfl⟩ := andThen_ok h0
  obtain ⟨g1, g2⟩ := bestMatchW_work h1
  have hmono : ∀ k, best.size ≤ k → 64 * tables th * best.size ≤ 64 * tables th * k := fun k hk => Nat.mul_le_mul_left _ hk
  split at h2
  · rename_i hs
    obtain ⟨rfl, rfl⟩ := ok_inj h2
    left
    simp only [kMinimumMatchSize] at hs
    have := hmono 31 (by omega)
    simp only [Work.Le, Work.add_def] at g1 ⊢
    refine ⟨trivial, trivial, by omega, by omega⟩
  · rename_i hs
    simp only [kMinimumMatchSize] at hs
    obtain ⟨t, t1, t2, t3⟩ : BlockHash.Around target candidate best := by
      rcases g2 with g2 | g2
      · omega
      · exact g2
    have ht : best.targetOffset.toNat = t := by omega
    right
    have := hmono (t + best.size) (by omega)
    split at h2
    · split at h2
      · cases h2
      · obtain ⟨rfl, rfl⟩ := ok_inj h2
        simp only [Work.Le, Work.add_def, ht, List.length_cons, List.length_nil] at g1 ⊢
        omega
    · obtain ⟨rfl, rfl⟩ := ok_inj h2
      simp only [Work.Le, Work.add_def, ht, List.length_cons, List.length_nil] at g1 ⊢
      omega

/-- The blocks in the target hash, if there is one. -/
def entered (th : Option BlockHash) : Nat := (th.map BlockHash.added).getD 0

theorem updateTargetHashW_work {th r : Option BlockHash} {f : BlockHash → Counted BlockHash} {w : Work} {target : Bytes}
    (hf : ∀ bh r w, f bh = .ok (r, w) → BlockHash.Entered bh r w)
    (h : updateTargetHashW th f = .ok (r, w)) (ht : ∀ bh, th = some bh → bh.source = target)
    (hl : entered th ≤ target.length / kBlockSize) :
    tables r = tables th ∧ (∀ bh, r = some bh → bh.source = target) ∧ entered r = entered th + w.adds ∧
      entered r ≤ target.length / kBlockSize ∧ w.Le { hashes := w.adds, adds := w.adds } := by
  cases th with
  | none =>
    obtain ⟨rfl, rfl⟩ := ok_inj h
    exact ⟨rfl, ht, rfl, hl, by simp [Work.Le]⟩
  | some bh =>
    obtain ⟨a, h1, rfl⟩ := map_ok (f := some) h
    obtain ⟨g1, g2, g3, g4, _⟩ := hf _ _ _ h1
    have hs := ht bh rfl
    refine ⟨rfl, ?_, g2, ?_, g4⟩
    · intro bh' e
      cases e
      rw [g1, hs]
    · rw [g1, hs] at g3
      simp only [entered, Option.map, Option.getD] at hl ⊢
      omega

theorem encodeLoopW_work {hashed : BlockHash} {target : Bytes} {c : Nat} (hc : c = 1 ∨ c = 2) (fuel : Nat) :
    ∀ {next candidate : Nat} {h : UInt32} {th : Option BlockHash} {calls : List CoderCall} {r : Nat × List CoderCall} {w : Work},
    encodeLoopW hashed target fuel next candidate h th calls = .ok (r, w) → tables th = c →
    next ≤ candidate → candidate + kBlockSize ≤ target.length → (∀ bh, th = some bh → bh.source = target) →
    entered th ≤ target.length / kBlockSize →
    next ≤ r.1 ∧ r.1 ≤ target.length ∧ w.searches + candidate + 15 ≤ target.length ∧
      w.blocks ≤ 1105 * c * w.searches ∧ w.bytes + 64 * c * next ≤ 64 * c * 31 * w.searches + 64 * c * r.1 ∧
      w.hashes ≤ w.searches + w.adds ∧ w.adds + entered th ≤ target.length / kBlockSize ∧
      16 * r.2.length + next ≤ 16 * calls.length + r.1 := by
  have hk : kBlockSize = 16 := rfl
  induction fuel with
  | zero => intro next candidate h th calls r w hr; cases hr
  | succ fuel ih =>
    intro next candidate h th calls r w hr htab hnc hcl hsrc hent
    simp only [encodeLoopW] at hr
    obtain ⟨m, w1, w2, h1, h2, rfl⟩ := andThen_ok hr
    have hm := encodeCopyForBestMatchW_work h1
    rw [htab, List.length_drop] at hm
    split at h2
    · rename_i hpos
      have hm : w1.Le { searches := 1, blocks := 1105 * c, bytes := 64 * c * m.1 } ∧ 1 ≤ w1.searches ∧
          candidate - next + kBlockSize ≤ m.1 ∧ m.1 ≤ target.length - next ∧ 16 * m.2.length ≤ m.1 := by
        rcases hm with hm | hm
        · omega
        · exact hm
      obtain ⟨m1, m2, m3, m4, m5⟩ := hm
      simp only [Work.Le] at m1
      split at h2
      · obtain ⟨rfl, rfl⟩ := ok_inj h2
        simp only [Work.add_def, List.length_append]
        rcases hc with rfl | rfl <;> omega
      · obtain ⟨block, w3, w4, h3, h4, rfl⟩ := andThen_ok h2
        obtain ⟨_, rfl⟩ := free_ok h3
        obtain ⟨th', w5, w6, h5, h6, rfl⟩ := andThen_ok h4
        obtain ⟨w7, h7, rfl⟩ := after_ok h5
        obtain ⟨u1, u2, u3, u4, u5⟩ := updateTargetHashW_work
          (fun _ _ _ => BlockHash.addAllBlocksThroughIndexW_work) h7 hsrc hent
        obtain ⟨g1, g2, g3, g4, g5, g6, g7, g8⟩ := ih h6 (u1.trans htab) (Nat.le_refl _) (by omega) u2 u4
        simp only [Work.Le] at u5
        simp only [Work.add_def, List.length_append] at g8 ⊢
        rcases hc with rfl | rfl <;> omega
    · rename_i hpos
      have hm : m.1 = 0 ∧ m.2 = [] ∧ w1.Le { searches := 1, blocks := 1105 * c, bytes := 64 * c * 31 } ∧ 1 ≤ w1.searches := by
        rcases hm with hm | hm
        · exact hm
        · omega
      obtain ⟨m1, m2, m3, m4⟩ := hm
      simp only [Work.Le] at m3
      split at h2
      · obtain ⟨rfl, rfl⟩ := ok_inj h2
        simp only [Work.add_def]
        rcases hc with rfl | rfl <;> omega
      · obtain ⟨th', w3, w4, h3, h4, rfl⟩ := andThen_ok h2
        obtain ⟨u1, u2, u3, u4, u5⟩ := updateTargetHashW_work
          (fun _ _ _ => BlockHash.addOneIndexHashW_work) h3 hsrc hent
        cases ho : target[candidate]? with
        | none => rw [ho] at h4; cases h4
        | some old =>
          cases hn : target[candidate + kBlockSize]? with
          | none => rw [ho, hn] at h4; cases h4
          | some new =>
            rw [ho, hn] at h4
            obtain ⟨w5, h5, rfl⟩ := after_ok h4
            have hlt := (List.getElem?_eq_some_iff.1 hn).1
            obtain ⟨g1, g2, g3, g4, g5, g6, g7, g8⟩ := ih h5 (u1.trans htab) (by omega) (by omega) u2 u4
            simp only [Work.Le] at u5
            simp only [Work.add_def]
            rcases hc with rfl | rfl <;> omega

/-- Without target matching nothing is entered. -/
theorem encodeLoopW_none {hashed : BlockHash} {target : Bytes} (fuel : Nat) :
    ∀ {next candidate : Nat} {h : UInt32} {calls : List CoderCall} {r : Nat × List CoderCall} {w : Work},
    encodeLoopW hashed target fuel next candidate h none calls = .ok (r, w) → w.adds = 0 := by
  induction fuel with
  | zero => intro _ _ _ _ _ _ hr; cases hr
  | succ fuel ih =>
    intro next candidate h calls r w hr
    simp only [encodeLoopW] at hr
    obtain ⟨m, w1, w2, h1, h2, rfl⟩ := andThen_ok hr
    have hm : w1.adds = 0 := by
      rcases encodeCopyForBestMatchW_work h1 with ⟨_, _, hm, _⟩ | ⟨hm, _⟩ <;> simp only [Work.Le] at hm <;> omega
    split at h2
    · split at h2
      · obtain ⟨rfl, rfl⟩ := ok_inj h2
        simp only [Work.add_def]; omega
      · obtain ⟨block, w3, w4, h3, h4, rfl⟩ := andThen_ok h2
        obtain ⟨_, rfl⟩ := free_ok h3
        obtain ⟨th', w5, w6, h5, h6, rfl⟩ := andThen_ok h4
        obtain ⟨w7, h7, rfl⟩ := after_ok h5
        obtain ⟨rfl, rfl⟩ := ok_inj h7
        have := ih h6
        simp only [Work.add_def]; omega
    · split at h2
      · obtain ⟨rfl, rfl⟩ := ok_inj h2
        simp only [Work.add_def]; omega
      · obtain ⟨th', w3, w4, h3, h4, rfl⟩ := andThen_ok h2
        obtain ⟨rfl, rfl⟩ := ok_inj h3
        cases ho : target[candidate]? with
        | none => rw [ho] at h4; cases h4
        | some old =>
          cases hn : target[candidate + kBlockSize]? with
          | none => rw [ho, hn] at h4; cases h4
          | some new =>
            rw [ho, hn] at h4
            obtain ⟨w5, h5, rfl⟩ := after_ok h4
            have := ih h5
            simp only [Work.add_def]; omega

end Engine
end Vcd
