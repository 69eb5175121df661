import Verif.Spec.Ownership

/-!
# Lemmas for C75
-/

namespace Vcd.Ownership
open Vcd.Spec

theorem ok_bind {α β : Type} (a : α) (f : α → Except Bad β) : (Except.ok a >>= f) = f a := rfl

theorem bind_eq {α β : Type} {x : Except Bad α} {a : α} {f : α → Except Bad β} {r : Except Bad β} (h : x = .ok a) (hf : f a = r) :
    (x >>= f) = r := by rw [h]; exact hf

theorem error_bind {α β : Type} (e : Bad) (f : α → Except Bad β) : (Except.error e >>= f) = .error e := rfl

theorem at_some {α : Type} {l : List (Option α)} {i : Nat} {x : α} (h : l[i]? = some (some x)) : at' l i = .ok x := by
  unfold at'; rw [h]

theorem delete_some {α : Type} {l : List (Option α)} {i : Nat} {x : α} (h : l[i]? = some (some x)) :
    delete l i = .ok (l.set i none) := by
  unfold delete; rw [at_some h]; rfl

/-! ## The source of a block hash -/

theorem addBlock_source {bh bh' : BlockHash} {v : UInt32} (h : Release.addBlock bh v = .ok bh') : bh'.source = bh.source := by
  unfold Release.addBlock at h
  repeat' split at h
  all_goals first | (cases h; rfl) | cases h

theorem addBlocksLoop_source {lim : Int} : ∀ {fuel : Nat} {bh bh' : BlockHash} {pos : Nat},
    Release.addBlocksLoop lim fuel bh pos = .ok bh' → bh'.source = bh.source
  | 0, _, _, _, h => by cases h
  | fuel + 1, bh, bh', pos, h => by
    unfold Release.addBlocksLoop at h
    split at h
    · cases h1 : readBlock bh.source pos with
      | error f => rw [h1] at h; cases h
      | ok block =>
        rw [h1] at h
        cases h2 : Release.addBlock bh (RollingHash.hash block) with
        | error f => simp only [bind, Except.bind, h2] at h; cases h
        | ok b =>
          simp only [bind, Except.bind, h2] at h
          rw [addBlocksLoop_source h, addBlock_source h2]
    · cases h; rfl

theorem addAll_source {bh bh' : BlockHash} {i : Int} (h : Release.addAllBlocksThroughIndex bh i = .ok bh') :
    bh'.source = bh.source := by
  unfold Release.addAllBlocksThroughIndex at h
  split at h
  · cases h; rfl
  split at h
  · cases h; rfl
  split at h
  · cases h; rfl
  · exact addBlocksLoop_source h

theorem create_source {s : Bytes} {o : Int} {p : Bool} {bh : BlockHash} (h : Release.create s o p = .ok (some bh)) :
    bh.source = s := by
  unfold Release.create at h
  simp only at h
  split at h
  · cases h
  · split at h
    · rename_i hp
      revert h
      cases h1 : Release.addAllBlocksThroughIndex _ (toInt32 s.length) with
      | error f => intro h; cases h
      | ok b => intro h; cases h; rw [addAll_source h1]
    · cases h; rfl

theorem create_unpopulated {s : Bytes} {o : Int} : ∃ r, Release.create s o false = .ok r := by
  unfold Release.create
  simp only
  split
  · exact ⟨_, rfl⟩
  · exact ⟨_, rfl⟩

/-! ## The invariant -/

/-- A dictionary: its engine, without pointers, and whether it exists. -/
structure Dict where
  engine : Engine
  live : Bool

/-- An encoder: its dictionary, the encoder without pointers, and whether it exists. -/
structure Enc where
  dict : Nat
  enc : Encoder
  live : Bool

/-- The copy of a dictionary. -/
def HoldsText (arrays : List (Option Bytes)) (bytes : Bytes) : Text → Prop
  | .array i => bytes ≠ [] ∧ arrays[i]? = some (some bytes)
  | .literal => bytes = []
  | .caller _ => False

/-- The block hash of a dictionary. -/
def HoldsHash (hashes : List (Option HashObject)) (t : Text) (dictionary : Bytes) : Option Nat → Option BlockHash → Prop
  | none, none => True
  | some j, some bh => bh.source = dictionary ∧ hashes[j]? = some (some { source := t, tables := { bh with source := [] } })
  | _, _ => False

/-- The objects of a dictionary. -/
structure HasDict (arrays : List (Option Bytes)) (hashes : List (Option HashObject)) (o : EngineObject) (x : Engine) : Prop where
  size : o.size = x.dictionary.length
  text : HoldsText arrays x.dictionary o.dictionary
  hash : HoldsHash hashes o.dictionary x.dictionary o.hashed x.hashed

/-- The `VCDiffStreamingEncoderImpl` of encoder number `e`. -/
def Enc.object (y : Enc) (e : Nat) : EncoderObject :=
  { engine := y.dict, coder := e, flags := y.enc.flags, lookForTargetMatches := y.enc.lookForTargetMatches, allowed := y.enc.allowed }

/-- What is in memory for the dictionaries `D`. -/
structure Dicts (dictionaries : List (Option Nat)) (engines : List (Option EngineObject)) (arrays : List (Option Bytes))
    (hashes : List (Option HashObject)) (D : List Dict) : Prop where
  handles : dictionaries.length = D.length
  enginesLen : engines.length = D.length
  live : ∀ (d : Nat) (x : Dict), D[d]? = some x → x.live = true →
    dictionaries[d]? = some (some d) ∧ ∃ o, engines[d]? = some (some o) ∧ HasDict arrays hashes o x.engine
  gone : ∀ (d : Nat) (x : Dict), D[d]? = some x → x.live = false → dictionaries[d]? = some none ∧ engines[d]? = some none
  arraysApart : ∀ (d d' : Nat) (o o' : EngineObject) (i : Nat), engines[d]? = some (some o) → engines[d']? = some (some o') →
    o.dictionary = .array i → o'.dictionary = .array i → d = d'
  hashesApart : ∀ (d d' : Nat) (o o' : EngineObject) (j : Nat), engines[d]? = some (some o) → engines[d']? = some (some o') →
    o.hashed = some j → o'.hashed = some j → d = d'
  arraysOwned : ∀ (i : Nat) (b : Bytes), arrays[i]? = some (some b) →
    ∃ (d : Nat) (o : EngineObject), engines[d]? = some (some o) ∧ o.dictionary = .array i
  hashesOwned : ∀ (j : Nat) (b : HashObject), hashes[j]? = some (some b) →
    ∃ (d : Nat) (o : EngineObject), engines[d]? = some (some o) ∧ o.hashed = some j

/-- What is in memory for the encoders `E`. -/
structure Encs (encoders : List (Option Nat)) (impls : List (Option EncoderObject)) (writers : List (Option Coder))
    (E : List Enc) : Prop where
  handles : encoders.length = E.length
  implsLen : impls.length = E.length
  writersLen : writers.length = E.length
  live : ∀ (e : Nat) (y : Enc), E[e]? = some y → y.live = true →
    encoders[e]? = some (some e) ∧ impls[e]? = some (some (y.object e)) ∧ writers[e]? = some (some y.enc.coder)
  gone : ∀ (e : Nat) (y : Enc), E[e]? = some y → y.live = false →
    encoders[e]? = some none ∧ impls[e]? = some none ∧ writers[e]? = some none

/-- The encoders `E` are for the dictionaries `D`. -/
def Match (D : List Dict) (E : List Enc) : Prop :=
  ∀ (e : Nat) (y : Enc), E[e]? = some y → ∃ x : Dict, D[y.dict]? = some x ∧ y.enc.engine = x.engine ∧ (y.live = true → x.live = true)

structure Inv (w : World) (D : List Dict) (E : List Enc) : Prop where
  dicts : Dicts w.dictionaries w.engines w.arrays w.hashes D
  encs : Encs w.encoders w.impls w.writers E
  fit : Match D E

theorem Inv.new : Inv {} [] [] := by
  refine ⟨?_, ?_, ?_⟩
  · constructor <;> simp
  · constructor <;> simp
  · intro e y h; simp at h

theorem HoldsText.read {w : World} {b : Bytes} {t : Text} (h : HoldsText w.arrays b t) : w.read t = .ok b := by
  cases t with
  | caller c => exact h.elim
  | array i => exact at_some h.2
  | literal => rw [show b = [] from h]; rfl

theorem Dicts.load {w : World} {D : List Dict} (h : Dicts w.dictionaries w.engines w.arrays w.hashes D) {d : Nat} {x : Dict}
    (hd : D[d]? = some x) (hl : x.live = true) : w.loadEngine d = .ok x.engine := by
  obtain ⟨_, o, k1, k2⟩ := h.live d x hd hl
  unfold World.loadEngine
  rw [at_some k1, ok_bind]
  simp only
  rw [k2.text.read, ok_bind]
  have hh := k2.hash
  have ht := k2.text.read
  obtain ⟨⟨dictionary, hashed⟩, live⟩ := x
  simp only at hh ht ⊢
  cases ho : o.hashed with
  | none =>
    rw [ho] at hh
    cases hashed with
    | none => rfl
    | some bh => exact hh.elim
  | some j =>
    rw [ho] at hh
    cases hashed with
    | none => exact hh.elim
    | some bh =>
      simp only
      rw [at_some hh.2, ok_bind]
      simp only
      rw [ht, ok_bind]
      obtain ⟨h1, _⟩ := hh
      cases bh
      simp only at h1
      subst h1
      rfl

/-! ## Dictionaries -/

theorem HoldsText.append {arrays : List (Option Bytes)} {b : Bytes} {t : Text} (h : HoldsText arrays b t) (x : Option Bytes) :
    HoldsText (arrays ++ [x]) b t := by
  cases t with
  | caller c => exact h.elim
  | literal => exact h
  | array i =>
    refine ⟨h.1, ?_⟩
    have := List.getElem?_eq_some_iff.1 h.2
    rw [List.getElem?_append_left this.1]; exact h.2

theorem HoldsHash.append {hashes : List (Option HashObject)} {t : Text} {b : Bytes} {j : Option Nat} {bh : Option BlockHash}
    (h : HoldsHash hashes t b j bh) (x : Option HashObject) : HoldsHash (hashes ++ [x]) t b j bh := by
  cases j with
  | none => cases bh <;> exact h
  | some j =>
    cases bh with
    | none => exact h
    | some bh =>
      refine ⟨h.1, ?_⟩
      have := List.getElem?_eq_some_iff.1 h.2
      rw [List.getElem?_append_left this.1]; exact h.2

/-- An object at the end of a list, which has been deleted again. -/
theorem Dicts.dead_hash {dictionaries : List (Option Nat)} {engines : List (Option EngineObject)} {arrays : List (Option Bytes)}
    {hashes : List (Option HashObject)} {D : List Dict} (h : Dicts dictionaries engines arrays hashes D) :
    Dicts dictionaries engines arrays (hashes ++ [none]) D where
  handles := h.handles
  enginesLen := h.enginesLen
  live := by
    intro d x hd hl
    obtain ⟨h1, o, h2, h3⟩ := h.live d x hd hl
    exact ⟨h1, o, h2, h3.size, h3.text, h3.hash.append _⟩
  gone := h.gone
  arraysApart := h.arraysApart
  hashesApart := h.hashesApart
  arraysOwned := h.arraysOwned
  hashesOwned := by
    intro j b hj
    rcases Nat.lt_or_ge j hashes.length with hlt | hge
    · rw [List.getElem?_append_left hlt] at hj
      exact h.hashesOwned j b hj
    · rw [List.getElem?_append_right hge] at hj
      rcases Nat.lt_or_ge (j - hashes.length) 1 with k | k
      · rw [show j - hashes.length = 0 by omega] at hj; simp at hj
      · rw [List.getElem?_eq_none (by simpa using k)] at hj; simp at hj

theorem getElem?_snoc {α : Type} {l : List α} {a b : α} {i : Nat} (h : (l ++ [a])[i]? = some b) :
    l[i]? = some b ∨ (i = l.length ∧ b = a) := by
  rcases Nat.lt_or_ge i l.length with hlt | hge
  · rw [List.getElem?_append_left hlt] at h; exact Or.inl h
  · rw [List.getElem?_append_right hge] at h
    rcases Nat.lt_or_ge (i - l.length) 1 with k | k
    · have : i = l.length := by omega
      subst this
      simp at h
      exact Or.inr ⟨rfl, h.symm⟩
    · rw [List.getElem?_eq_none (by simpa using k)] at h; cases h

theorem getElem?_snoc_left {α : Type} {l : List α} {a b : α} {i : Nat} (h : l[i]? = some b) : (l ++ [a])[i]? = some b := by
  rw [List.getElem?_append_left (List.getElem?_eq_some_iff.1 h).1]; exact h

theorem getElem?_snoc_last {α : Type} {l : List α} {a : α} {n : Nat} (h : l.length = n) : (l ++ [a])[n]? = some a := by
  subst h; simp

theorem lt_of_getElem? {α : Type} {l : List α} {a : α} {i : Nat} (h : l[i]? = some a) : i < l.length :=
  (List.getElem?_eq_some_iff.1 h).1

/-- A further dictionary with its copy. -/
theorem Dicts.push {dictionaries : List (Option Nat)} {engines : List (Option EngineObject)} {arrays : List (Option Bytes)}
    {hashes : List (Option HashObject)} {D : List Dict} (h : Dicts dictionaries engines arrays hashes D) (contents : Bytes)
    {t : Text} {arrays' : List (Option Bytes)}
    (ht : contents = [] ∧ t = .literal ∧ arrays' = arrays ∨
      contents ≠ [] ∧ t = .array arrays.length ∧ arrays' = arrays ++ [some contents]) :
    Dicts (dictionaries ++ [some engines.length])
      (engines ++ [some { dictionary := t, size := contents.length, hashed := none }]) arrays' hashes
      (D ++ [⟨⟨contents, none⟩, true⟩]) where
  handles := by simp [h.handles]
  enginesLen := by simp [h.enginesLen]
  live := by
    intro d x hd hl
    rcases getElem?_snoc hd with hd | ⟨rfl, rfl⟩
    · obtain ⟨h1, o, h2, h3⟩ := h.live d x hd hl
      refine ⟨getElem?_snoc_left h1, o, getElem?_snoc_left h2, h3.size, ?_, h3.hash⟩
      rcases ht with ⟨_, _, rfl⟩ | ⟨_, _, rfl⟩
      · exact h3.text
      · exact h3.text.append _
    · refine ⟨?_, _, getElem?_snoc_last h.enginesLen, rfl, ?_, trivial⟩
      · rw [h.enginesLen]; exact getElem?_snoc_last h.handles
      · rcases ht with ⟨rfl, rfl, rfl⟩ | ⟨k, rfl, rfl⟩
        · rfl
        · exact ⟨k, getElem?_snoc_last rfl⟩
  gone := by
    intro d x hd hl
    rcases getElem?_snoc hd with hd | ⟨rfl, rfl⟩
    · obtain ⟨h1, h2⟩ := h.gone d x hd hl
      exact ⟨getElem?_snoc_left h1, getElem?_snoc_left h2⟩
    · cases hl
  arraysApart := by
    have old : ∀ (d : Nat) (o : EngineObject) (i : Nat), engines[d]? = some (some o) → o.dictionary = .array i → i < arrays.length := by
      intro d o i hd ho
      have hlt := lt_of_getElem? hd
      rw [h.enginesLen] at hlt
      have hx : D[d]? = some D[d] := List.getElem?_eq_getElem hlt
      cases hl : D[d].live with
      | false => rw [(h.gone d _ hx hl).2] at hd; cases hd
      | true =>
        obtain ⟨_, o', h2, h3⟩ := h.live d _ hx hl
        rw [hd] at h2
        simp only [Option.some.injEq] at h2
        subst h2
        have := h3.text
        rw [ho] at this
        exact lt_of_getElem? this.2
    intro d d' o o' i h1 h2 h3 h4
    rcases getElem?_snoc h1 with h1 | ⟨rfl, k1⟩ <;> rcases getElem?_snoc h2 with h2 | ⟨rfl, k2⟩
    · exact h.arraysApart d d' o o' i h1 h2 h3 h4
    · have hi := old d o i h1 h3
      simp only [Option.some.injEq] at k2
      subst k2
      rcases ht with ⟨_, rfl, _⟩ | ⟨_, rfl, _⟩
      · cases h4
      · simp only [Text.array.injEq] at h4; omega
    · have hi := old d' o' i h2 h4
      simp only [Option.some.injEq] at k1
      subst k1
      rcases ht with ⟨_, rfl, _⟩ | ⟨_, rfl, _⟩
      · cases h3
      · simp only [Text.array.injEq] at h3; omega
    · rfl
  hashesApart := by
    intro d d' o o' j h1 h2 h3 h4
    rcases getElem?_snoc h1 with h1 | ⟨rfl, k1⟩
    · rcases getElem?_snoc h2 with h2 | ⟨rfl, k2⟩
      · exact h.hashesApart d d' o o' j h1 h2 h3 h4
      · simp only [Option.some.injEq] at k2; subst k2; cases h4
    · simp only [Option.some.injEq] at k1; subst k1; cases h3
  arraysOwned := by
    intro i b hi
    rcases ht with ⟨_, _, rfl⟩ | ⟨_, rfl, rfl⟩
    · obtain ⟨d, o, h1, h2⟩ := h.arraysOwned i b hi
      exact ⟨d, o, getElem?_snoc_left h1, h2⟩
    · rcases getElem?_snoc hi with hi | ⟨rfl, _⟩
      · obtain ⟨d, o, h1, h2⟩ := h.arraysOwned i b hi
        exact ⟨d, o, getElem?_snoc_left h1, h2⟩
      · exact ⟨_, _, getElem?_snoc_last rfl, rfl⟩
  hashesOwned := by
    intro j b hj
    obtain ⟨d, o, h1, h2⟩ := h.hashesOwned j b hj
    exact ⟨d, o, getElem?_snoc_left h1, h2⟩

/-- `HashedDictionary(..)`. -/
theorem step_dictionary {w : World} {D : List Dict} {E : List Enc} (h : Inv w D E) (contents : Bytes) :
    ∃ w', w.step (.dictionary contents) = .ok (none, w') ∧ Inv w' (D ++ [⟨⟨contents, none⟩, true⟩]) E := by
  have hfit : Match (D ++ [⟨⟨contents, none⟩, true⟩]) E := by
    intro e y hy
    obtain ⟨x, h1, h2⟩ := h.fit e y hy
    exact ⟨x, getElem?_snoc_left h1, h2⟩
  by_cases hc : contents.length > 0
  · have hs : w.step (.dictionary contents) = .ok (none,
        { w with call := w.call + 1, memory := none, arrays := w.arrays ++ [some contents], dictionaries := w.dictionaries ++ [some w.engines.length],
                 engines := w.engines ++ [some { dictionary := .array w.arrays.length, size := contents.length, hashed := none }] }) := by
      simp only [World.step, World.newDictionary, World.enter, hc, if_pos, World.read, bind, Except.bind]
      rfl
    refine ⟨_, hs, ?_, h.encs, hfit⟩
    exact h.dicts.push contents (Or.inr ⟨by intro h0; rw [h0] at hc; simp at hc, rfl, rfl⟩)
  · have hs : w.step (.dictionary contents) = .ok (none,
        { w with call := w.call + 1, memory := none, dictionaries := w.dictionaries ++ [some w.engines.length],
                 engines := w.engines ++ [some { dictionary := .literal, size := contents.length, hashed := none }] }) := by
      simp only [World.step, World.newDictionary, World.enter, if_neg hc, bind, Except.bind]
      rfl
    refine ⟨_, hs, ?_, h.encs, hfit⟩
    exact h.dicts.push contents (Or.inl ⟨List.eq_nil_of_length_eq_zero (by omega), rfl, rfl⟩)

theorem getElem?_set {α : Type} {l : List α} {i k : Nat} {a b : α} (h : (l.set i a)[k]? = some b) :
    (k = i ∧ b = a ∧ i < l.length) ∨ (k ≠ i ∧ l[k]? = some b) := by
  rw [List.getElem?_set] at h
  split at h
  · rename_i hik
    subst hik
    split at h
    · rename_i hlt
      simp only [Option.some.injEq] at h
      exact Or.inl ⟨rfl, h.symm, hlt⟩
    · cases h
  · rename_i hik
    exact Or.inr ⟨fun h' => hik h'.symm, h⟩

theorem getElem?_set_same {α : Type} {l : List α} {i : Nat} {a b : α} (h : l[i]? = some b) : (l.set i a)[i]? = some a := by
  rw [List.getElem?_set, if_pos rfl, if_pos (lt_of_getElem? h)]

theorem getElem?_set_other {α : Type} {l : List α} {i k : Nat} {a : α} (h : k ≠ i) : (l.set i a)[k]? = l[k]? := by
  rw [List.getElem?_set, if_neg (fun h' => h h'.symm)]

/-- The dictionary of an engine. -/
theorem Dicts.of_engine {dictionaries : List (Option Nat)} {engines : List (Option EngineObject)} {arrays : List (Option Bytes)}
    {hashes : List (Option HashObject)} {D : List Dict} (h : Dicts dictionaries engines arrays hashes D) {d : Nat} {o : EngineObject}
    (hd : engines[d]? = some (some o)) : ∃ x, D[d]? = some x ∧ x.live = true ∧ HasDict arrays hashes o x.engine := by
  have hlt := lt_of_getElem? hd
  rw [h.enginesLen] at hlt
  have hx : D[d]? = some D[d] := List.getElem?_eq_getElem hlt
  cases hl : D[d].live with
  | false => rw [(h.gone d _ hx hl).2] at hd; cases hd
  | true =>
    obtain ⟨_, o', h2, h3⟩ := h.live d _ hx hl
    rw [hd] at h2
    simp only [Option.some.injEq] at h2
    subst h2
    exact ⟨_, hx, hl, h3⟩

theorem HasDict.hash_lt {arrays : List (Option Bytes)} {hashes : List (Option HashObject)} {o : EngineObject} {x : Engine}
    (h : HasDict arrays hashes o x) {j : Nat} (hj : o.hashed = some j) : j < hashes.length := by
  have := h.hash
  rw [hj] at this
  cases hx : x.hashed with
  | none => rw [hx] at this; exact this.elim
  | some bh => rw [hx] at this; exact lt_of_getElem? this.2

/-- A block hash for a dictionary that had none. -/
theorem Dicts.hashed {dictionaries : List (Option Nat)} {engines : List (Option EngineObject)} {arrays : List (Option Bytes)}
    {hashes : List (Option HashObject)} {D : List Dict} (h : Dicts dictionaries engines arrays hashes D) {d : Nat} {x : Dict}
    {o : EngineObject} {bh : BlockHash} (hd : D[d]? = some x) (hl : x.live = true) (ho : engines[d]? = some (some o))
    (hn : o.hashed = none) (hb : bh.source = x.engine.dictionary) :
    Dicts dictionaries (engines.set d (some { o with hashed := some hashes.length })) arrays
      (hashes ++ [some { source := o.dictionary, tables := { bh with source := [] } }])
      (D.set d { x with engine := { x.engine with hashed := some bh } }) where
  handles := by simp [h.handles]
  enginesLen := by simp [h.enginesLen]
  live := by
    intro d' x' hd' hl'
    rcases getElem?_set hd' with ⟨rfl, rfl, _⟩ | ⟨hne, hd'⟩
    · obtain ⟨h1, o', h2, h3⟩ := h.live d' x hd hl
      rw [ho] at h2
      simp only [Option.some.injEq] at h2
      subst h2
      exact ⟨h1, _, getElem?_set_same ho, h3.size, h3.text, hb, getElem?_snoc_last rfl⟩
    · obtain ⟨h1, o', h2, h3⟩ := h.live d' x' hd' hl'
      exact ⟨h1, o', by rw [getElem?_set_other hne]; exact h2, h3.size, h3.text, h3.hash.append _⟩
  gone := by
    intro d' x' hd' hl'
    rcases getElem?_set hd' with ⟨rfl, rfl, _⟩ | ⟨hne, hd'⟩
    · simp only at hl'; rw [hl] at hl'; cases hl'
    · obtain ⟨h1, h2⟩ := h.gone d' x' hd' hl'
      exact ⟨h1, by rw [getElem?_set_other hne]; exact h2⟩
  arraysApart := by
    intro d1 d2 o1 o2 i h1 h2 h3 h4
    have key : ∀ {d1 : Nat} {o1 : EngineObject}, (engines.set d (some { o with hashed := some hashes.length }))[d1]? = some (some o1) →
        ∃ o', engines[d1]? = some (some o') ∧ o'.dictionary = o1.dictionary := by
      intro d1 o1 k
      rcases getElem?_set k with ⟨rfl, k, _⟩ | ⟨_, k⟩
      · simp only [Option.some.injEq] at k; subst k; exact ⟨o, ho, rfl⟩
      · exact ⟨o1, k, rfl⟩
    obtain ⟨p1, k1, k2⟩ := key h1
    obtain ⟨p2, k3, k4⟩ := key h2
    exact h.arraysApart d1 d2 p1 p2 i k1 k3 (k2.trans h3) (k4.trans h4)
  hashesApart := by
    intro d1 d2 o1 o2 j h1 h2 h3 h4
    rcases getElem?_set h1 with ⟨rfl, k1, _⟩ | ⟨n1, k1⟩ <;> rcases getElem?_set h2 with ⟨rfl, k2, _⟩ | ⟨n2, k2⟩
    · rfl
    · simp only [Option.some.injEq] at k1; subst k1
      simp only [Option.some.injEq] at h3
      obtain ⟨_, _, _, k⟩ := h.of_engine k2
      have := k.hash_lt h4
      omega
    · simp only [Option.some.injEq] at k2; subst k2
      simp only [Option.some.injEq] at h4
      obtain ⟨_, _, _, k⟩ := h.of_engine k1
      have := k.hash_lt h3
      omega
    · exact h.hashesApart d1 d2 o1 o2 j k1 k2 h3 h4
  arraysOwned := by
    intro i b hi
    obtain ⟨d', o', h1, h2⟩ := h.arraysOwned i b hi
    by_cases hdd : d' = d
    · subst hdd
      rw [ho] at h1
      simp only [Option.some.injEq] at h1
      subst h1
      exact ⟨d', _, getElem?_set_same ho, h2⟩
    · exact ⟨d', o', by rw [getElem?_set_other hdd]; exact h1, h2⟩
  hashesOwned := by
    intro j b hj
    rcases getElem?_snoc hj with hj | ⟨rfl, _⟩
    · obtain ⟨d', o', h1, h2⟩ := h.hashesOwned j b hj
      have hdd : d' ≠ d := by
        intro hdd
        subst hdd
        rw [ho] at h1
        simp only [Option.some.injEq] at h1
        subst h1
        rw [hn] at h2; cases h2
      exact ⟨d', o', by rw [getElem?_set_other hdd]; exact h1, h2⟩
    · exact ⟨d, _, getElem?_set_same ho, rfl⟩

/-- The encoders of a dictionary see that it has been initialised. -/
def withEngine (d : Nat) (engine : Engine) (y : Enc) : Enc :=
  if y.dict = d then { y with enc := { y.enc with engine } } else y

theorem withEngine_live (d : Nat) (engine : Engine) (y : Enc) : (withEngine d engine y).live = y.live := by
  unfold withEngine; split <;> rfl

theorem withEngine_dict (d : Nat) (engine : Engine) (y : Enc) : (withEngine d engine y).dict = y.dict := by
  unfold withEngine; split <;> rfl

theorem withEngine_object (d : Nat) (engine : Engine) (y : Enc) (e : Nat) : (withEngine d engine y).object e = y.object e := by
  unfold withEngine; split <;> rfl

theorem withEngine_coder (d : Nat) (engine : Engine) (y : Enc) : (withEngine d engine y).enc.coder = y.enc.coder := by
  unfold withEngine; split <;> rfl

theorem Encs.withEngine {encoders : List (Option Nat)} {impls : List (Option EncoderObject)} {writers : List (Option Coder)}
    {E : List Enc} (h : Encs encoders impls writers E) (d : Nat) (engine : Engine) :
    Encs encoders impls writers (E.map (withEngine d engine)) where
  handles := by simp [h.handles]
  implsLen := by simp [h.implsLen]
  writersLen := by simp [h.writersLen]
  live := by
    intro e y hy hl
    rw [List.getElem?_map, Option.map_eq_some_iff] at hy
    obtain ⟨y0, h1, rfl⟩ := hy
    rw [withEngine_live] at hl
    rw [withEngine_object, withEngine_coder]
    exact h.live e y0 h1 hl
  gone := by
    intro e y hy hl
    rw [List.getElem?_map, Option.map_eq_some_iff] at hy
    obtain ⟨y0, h1, rfl⟩ := hy
    rw [withEngine_live] at hl
    exact h.gone e y0 h1 hl

theorem Match.withEngine {D : List Dict} {E : List Enc} (h : Match D E) {d : Nat} {x : Dict} (hd : D[d]? = some x) (engine : Engine) :
    Match (D.set d { x with engine }) (E.map (withEngine d engine)) := by
  intro e y hy
  rw [List.getElem?_map, Option.map_eq_some_iff] at hy
  obtain ⟨y0, h1, rfl⟩ := hy
  obtain ⟨x0, k1, k2, k3⟩ := h e y0 h1
  rw [withEngine_dict, withEngine_live]
  by_cases hk : y0.dict = d
  · rw [hk]
    rw [hk, hd] at k1
    simp only [Option.some.injEq] at k1
    subst k1
    refine ⟨_, getElem?_set_same hd, ?_, k3⟩
    unfold Ownership.withEngine
    rw [if_pos hk]
  · refine ⟨x0, by rw [getElem?_set_other hk]; exact k1, ?_, k3⟩
    unfold Ownership.withEngine
    rw [if_neg hk]; exact k2

theorem Match.same {D : List Dict} {E : List Enc} (h : Match D E) {d : Nat} {x : Dict} (hd : D[d]? = some x) :
    E.map (Ownership.withEngine d x.engine) = E ∧ D.set d { x with engine := x.engine } = D := by
  constructor
  · apply List.ext_getElem?
    intro e
    rw [List.getElem?_map]
    cases hy : E[e]? with
    | none => rfl
    | some y =>
      obtain ⟨x0, k1, k2, _⟩ := h e y hy
      simp only [Option.map_some, Option.some.injEq]
      unfold Ownership.withEngine
      split
      · rename_i hk
        rw [hk, hd] at k1
        simp only [Option.some.injEq] at k1
        subst k1
        rw [← k2]
      · rfl
  · apply List.ext_getElem?
    intro k
    by_cases hk : k = d
    · subst hk; rw [getElem?_set_same hd, hd]
    · rw [getElem?_set_other hk]

/-- `HashedDictionary::Init`. -/
theorem step_init {w : World} {D : List Dict} {E : List Enc} (h : Inv w D E) {d : Nat} {x : Dict} (hd : D[d]? = some x)
    (hl : x.live = true) :
    match Release.initCall x.engine with
    | .error f => w.step (.init d) = .error (.fault f)
    | .ok (ret, engine) => ∃ w', w.step (.init d) = .ok (some ⟨ret, []⟩, w') ∧
        Inv w' (D.set d { x with engine }) (E.map (withEngine d engine)) := by
  obtain ⟨h1, o, h2, h3⟩ := h.dicts.live d x hd hl
  have hh := h3.hash
  unfold Release.initCall
  have hstep : w.step (.init d) = (do
      let (ret, w) ← w.init d
      .ok (some ⟨ret, []⟩, w)) := rfl
  rw [hstep]
  unfold World.init
  rw [at_some h1, ok_bind]
  simp only
  rw [at_some h2, ok_bind]
  cases hx : x.engine.hashed with
  | some bh =>
    rw [hx] at hh
    cases ho : o.hashed with
    | none => rw [ho] at hh; exact hh.elim
    | some j =>
      simp only
      refine ⟨w, rfl, ?_⟩
      obtain ⟨e1, e2⟩ := h.fit.same hd
      rw [e1, e2]
      exact h
  | none =>
    rw [hx] at hh
    cases ho : o.hashed with
    | some j => rw [ho] at hh; exact hh.elim
    | none =>
      simp only
      rw [h3.text.read, ok_bind]
      cases hc : Release.create x.engine.dictionary 0 true with
      | error f => rfl
      | ok r =>
        cases r with
        | none =>
          refine ⟨w, rfl, ?_⟩
          obtain ⟨e1, e2⟩ := h.fit.same hd
          rw [e1, e2]
          exact h
        | some bh =>
          refine ⟨_, rfl, ?_, h.encs.withEngine d _, h.fit.withEngine hd _⟩
          exact h.dicts.hashed hd hl h2 ho (create_source hc)

/-! ## Deleting a dictionary -/

/-- The arrays and block hashes of the other dictionaries remain. -/
theorem Dicts.remove {dictionaries : List (Option Nat)} {engines : List (Option EngineObject)} {arrays : List (Option Bytes)}
    {hashes : List (Option HashObject)} {D : List Dict} (h : Dicts dictionaries engines arrays hashes D) {d : Nat} {x : Dict}
    {o : EngineObject} (hd : D[d]? = some x) (hl : x.live = true) (ho : engines[d]? = some (some o)) :
    Dicts (dictionaries.set d none) (engines.set d none)
      (match o.dictionary with | .array i => arrays.set i none | _ => arrays)
      (match o.hashed with | some j => hashes.set j none | none => hashes)
      (D.set d { x with live := false }) where
  handles := by simp [h.handles]
  enginesLen := by simp [h.enginesLen]
  live := by
    intro d' x' hd' hl'
    rcases getElem?_set hd' with ⟨rfl, rfl, _⟩ | ⟨hne, hd'⟩
    · cases hl'
    · obtain ⟨h1, o', h2, h3⟩ := h.live d' x' hd' hl'
      refine ⟨by rw [getElem?_set_other hne]; exact h1, o', by rw [getElem?_set_other hne]; exact h2, h3.size, ?_, ?_⟩
      · cases hod : o.dictionary with
        | caller c => exact h3.text
        | literal => exact h3.text
        | array i =>
          have ht := h3.text
          cases hod' : o'.dictionary with
          | caller c => rw [hod'] at ht; exact ht.elim
          | literal => rw [hod'] at ht; exact ht
          | array i' =>
            rw [hod'] at ht
            refine ⟨ht.1, ?_⟩
            have : i' ≠ i := by
              intro hi
              subst hi
              exact hne (h.arraysApart d' d o' o i' h2 ho hod' hod)
            simp only
            rw [getElem?_set_other this]; exact ht.2
      · cases hoh : o.hashed with
        | none => exact h3.hash
        | some j =>
          have ht := h3.hash
          cases hoh' : o'.hashed with
          | none => rw [hoh'] at ht; cases hx : x'.engine.hashed with
            | none => trivial
            | some bh => rw [hx] at ht; exact ht.elim
          | some j' =>
            rw [hoh'] at ht
            cases hx : x'.engine.hashed with
            | none => rw [hx] at ht; exact ht.elim
            | some bh =>
              rw [hx] at ht
              refine ⟨ht.1, ?_⟩
              have : j' ≠ j := by
                intro hj
                subst hj
                exact hne (h.hashesApart d' d o' o j' h2 ho hoh' hoh)
              simp only
              rw [getElem?_set_other this]; exact ht.2
  gone := by
    intro d' x' hd' hl'
    rcases getElem?_set hd' with ⟨rfl, rfl, _⟩ | ⟨hne, hd'⟩
    · exact ⟨getElem?_set_same (h.live d' x hd hl).1, getElem?_set_same ho⟩
    · obtain ⟨h1, h2⟩ := h.gone d' x' hd' hl'
      exact ⟨by rw [getElem?_set_other hne]; exact h1, by rw [getElem?_set_other hne]; exact h2⟩
  arraysApart := by
    intro d1 d2 o1 o2 i h1 h2 h3 h4
    rcases getElem?_set h1 with ⟨_, k, _⟩ | ⟨_, h1⟩
    · cases k
    rcases getElem?_set h2 with ⟨_, k, _⟩ | ⟨_, h2⟩
    · cases k
    exact h.arraysApart d1 d2 o1 o2 i h1 h2 h3 h4
  hashesApart := by
    intro d1 d2 o1 o2 i h1 h2 h3 h4
    rcases getElem?_set h1 with ⟨_, k, _⟩ | ⟨_, h1⟩
    · cases k
    rcases getElem?_set h2 with ⟨_, k, _⟩ | ⟨_, h2⟩
    · cases k
    exact h.hashesApart d1 d2 o1 o2 i h1 h2 h3 h4
  arraysOwned := by
    intro i b hi
    have key : arrays[i]? = some (some b) ∧ o.dictionary ≠ .array i := by
      cases hod : o.dictionary with
      | caller c => rw [hod] at hi; exact ⟨hi, by simp⟩
      | literal => rw [hod] at hi; exact ⟨hi, by simp⟩
      | array k =>
        rw [hod] at hi
        rcases getElem?_set hi with ⟨_, k, _⟩ | ⟨hne, hi⟩
        · cases k
        · exact ⟨hi, by simp only [ne_eq, Text.array.injEq]; exact fun h' => hne h'.symm⟩
    obtain ⟨d', o', h1, h2⟩ := h.arraysOwned i b key.1
    have hdd : d' ≠ d := by
      intro hdd
      subst hdd
      rw [ho] at h1
      simp only [Option.some.injEq] at h1
      subst h1
      exact key.2 h2
    exact ⟨d', o', by rw [getElem?_set_other hdd]; exact h1, h2⟩
  hashesOwned := by
    intro j b hj
    have key : hashes[j]? = some (some b) ∧ o.hashed ≠ some j := by
      cases hoh : o.hashed with
      | none => rw [hoh] at hj; exact ⟨hj, by simp⟩
      | some k =>
        rw [hoh] at hj
        rcases getElem?_set hj with ⟨_, k, _⟩ | ⟨hne, hj⟩
        · cases k
        · exact ⟨hj, by simp only [ne_eq, Option.some.injEq]; exact fun h' => hne h'.symm⟩
    obtain ⟨d', o', h1, h2⟩ := h.hashesOwned j b key.1
    have hdd : d' ≠ d := by
      intro hdd
      subst hdd
      rw [ho] at h1
      simp only [Option.some.injEq] at h1
      subst h1
      exact key.2 h2
    exact ⟨d', o', by rw [getElem?_set_other hdd]; exact h1, h2⟩

/-- `~HashedDictionary`, if no encoder needs it. -/
theorem step_deleteDictionary {w : World} {D : List Dict} {E : List Enc} (h : Inv w D E) {d : Nat} {x : Dict} (hd : D[d]? = some x)
    (hl : x.live = true) (hE : ∀ (e : Nat) (y : Enc), E[e]? = some y → y.live = true → y.dict ≠ d) :
    ∃ w', w.step (.deleteDictionary d) = .ok (none, w') ∧ Inv w' (D.set d { x with live := false }) E := by
  obtain ⟨h1, o, h2, h3⟩ := h.dicts.live d x hd hl
  have hr := h.dicts.remove hd hl h2
  have hfit : Match (D.set d { x with live := false }) E := by
    intro e y hy
    obtain ⟨x', k1, k2, k3⟩ := h.fit e y hy
    by_cases hk : y.dict = d
    · rw [hk] at k1 ⊢
      rw [hd] at k1
      simp only [Option.some.injEq] at k1
      subst k1
      exact ⟨_, getElem?_set_same hd, k2, fun hlive => absurd hk (hE e y hy hlive)⟩
    · exact ⟨x', by rw [getElem?_set_other hk]; exact k1, k2, k3⟩
  have e1 : (match o.hashed with
      | some h => delete w.hashes h
      | none => .ok w.hashes : Except Bad (List (Option HashObject))) =
      .ok (match o.hashed with | some j => w.hashes.set j none | none => w.hashes) := by
    cases ho : o.hashed with
    | none => rfl
    | some j =>
      have hh := h3.hash
      rw [ho] at hh
      cases hx : x.engine.hashed with
      | none => rw [hx] at hh; exact hh.elim
      | some bh =>
        rw [hx] at hh
        exact delete_some hh.2
  have e2 : (if o.size > 0 then
      match o.dictionary with
      | .array i => delete w.arrays i
      | _ => .error .dead
    else .ok w.arrays : Except Bad (List (Option Bytes))) =
      .ok (match o.dictionary with | .array i => w.arrays.set i none | _ => w.arrays) := by
    have ht := h3.text
    cases ho : o.dictionary with
    | caller c => rw [ho] at ht; exact ht.elim
    | literal =>
      rw [ho] at ht
      rw [if_neg (by rw [h3.size, show x.engine.dictionary = [] from ht]; simp)]
    | array i =>
      rw [ho] at ht
      rw [if_pos (by rw [h3.size]; exact List.length_pos_iff.mpr ht.1)]
      exact delete_some ht.2
  refine ⟨{ w with
      hashes := match o.hashed with | some j => w.hashes.set j none | none => w.hashes
      arrays := match o.dictionary with | .array i => w.arrays.set i none | _ => w.arrays
      engines := w.engines.set d none
      dictionaries := w.dictionaries.set d none }, ?_, ⟨hr, h.encs, hfit⟩⟩
  have hstep : w.step (.deleteDictionary d) = (do
      let w ← w.deleteDictionary d
      .ok (none, w)) := rfl
  rw [hstep]
  unfold World.deleteDictionary
  rw [at_some h1, ok_bind, at_some h2, ok_bind]
  refine bind_eq (bind_eq e1 (bind_eq e2 ?_)) rfl
  rw [delete_some h2, ok_bind, delete_some h1, ok_bind]

/-! ## Encoders -/

/-- The first constructor of `VCDiffStreamingEncoder`. -/
theorem step_encoder {w : World} {D : List Dict} {E : List Enc} (h : Inv w D E) {d : Nat} {x : Dict} (hd : D[d]? = some x)
    (hl : x.live = true) (flags : Nat) (matching : Bool) :
    ∃ w', w.step (.encoder d flags matching) = .ok (none, w') ∧
      Inv w' D (E ++ [⟨d, Encoder.new x.engine flags matching, true⟩]) := by
  obtain ⟨h1, _⟩ := h.dicts.live d x hd hl
  have hstep : w.step (.encoder d flags matching) = (do
      let w ← w.newEncoder d flags matching
      .ok (none, w)) := rfl
  rw [hstep]
  unfold World.newEncoder
  rw [at_some h1, ok_bind]
  refine ⟨_, rfl, h.dicts, ?_, ?_⟩
  · have hE := h.encs
    refine ⟨by simp [hE.handles], by simp [hE.implsLen], by simp [hE.writersLen], ?_, ?_⟩
    · intro e y hy hlive
      rcases getElem?_snoc hy with hy | ⟨rfl, rfl⟩
      · obtain ⟨k1, k2, k3⟩ := hE.live e y hy hlive
        exact ⟨getElem?_snoc_left k1, getElem?_snoc_left k2, getElem?_snoc_left k3⟩
      · refine ⟨?_, ?_, getElem?_snoc_last hE.writersLen⟩
        · rw [← hE.implsLen]; exact getElem?_snoc_last (hE.handles.trans hE.implsLen.symm)
        · rw [← hE.writersLen]; exact getElem?_snoc_last (hE.implsLen.trans hE.writersLen.symm)
    · intro e y hy hlive
      rcases getElem?_snoc hy with hy | ⟨rfl, rfl⟩
      · obtain ⟨k1, k2, k3⟩ := hE.gone e y hy hlive
        exact ⟨getElem?_snoc_left k1, getElem?_snoc_left k2, getElem?_snoc_left k3⟩
      · cases hlive
  · intro e y hy
    rcases getElem?_snoc hy with hy | ⟨rfl, rfl⟩
    · exact h.fit e y hy
    · exact ⟨x, hd, rfl, fun _ => hl⟩

/-- `~VCDiffStreamingEncoder`. -/
theorem step_deleteEncoder {w : World} {D : List Dict} {E : List Enc} (h : Inv w D E) {e : Nat} {y : Enc} (he : E[e]? = some y)
    (hl : y.live = true) :
    ∃ w', w.step (.deleteEncoder e) = .ok (none, w') ∧ Inv w' D (E.set e { y with live := false }) := by
  have hE := h.encs
  obtain ⟨h1, h2, h3⟩ := hE.live e y he hl
  have hstep : w.step (.deleteEncoder e) = (do
      let w ← w.deleteEncoder e
      .ok (none, w)) := rfl
  rw [hstep]
  unfold World.deleteEncoder
  rw [at_some h1, ok_bind, at_some h2, ok_bind, Enc.object]
  simp only
  rw [delete_some h3, ok_bind, delete_some h2, ok_bind, delete_some h1, ok_bind]
  refine ⟨_, rfl, h.dicts, ?_, ?_⟩
  · refine ⟨by simp [hE.handles], by simp [hE.implsLen], by simp [hE.writersLen], ?_, ?_⟩
    · intro e' y' hy hlive
      rcases getElem?_set hy with ⟨rfl, rfl, _⟩ | ⟨hne, hy⟩
      · cases hlive
      · simp only
        rw [getElem?_set_other hne, getElem?_set_other hne, getElem?_set_other hne]
        exact hE.live e' y' hy hlive
    · intro e' y' hy hlive
      rcases getElem?_set hy with ⟨rfl, rfl, _⟩ | ⟨hne, hy⟩
      · exact ⟨getElem?_set_same h1, getElem?_set_same h2, getElem?_set_same h3⟩
      · simp only
        rw [getElem?_set_other hne, getElem?_set_other hne, getElem?_set_other hne]
        exact hE.gone e' y' hy hlive
  · intro e' y' hy
    rcases getElem?_set hy with ⟨rfl, rfl, _⟩ | ⟨hne, hy⟩
    · obtain ⟨x, k1, k2, _⟩ := h.fit e' y he
      exact ⟨x, k1, k2, fun h' => by cases h'⟩
    · exact h.fit e' y' hy

/-- A call of an encoder changes its writer and whether it has been started, and nothing else. -/
theorem pairCall_keeps {e e' : Encoder} {c : EncoderCall} {r : EncoderReply} (h : Release.pairCall e (.encoder c) = .ok (r, e')) :
    e'.engine = e.engine ∧ e'.flags = e.flags ∧ e'.lookForTargetMatches = e.lookForTargetMatches := by
  cases c with
  | start =>
    simp only [Release.pairCall, Release.start, Encoder.start] at h
    grind [Except.map]
  | chunk data =>
    simp only [Release.pairCall, Release.chunk] at h
    grind [Except.map]
  | finish =>
    simp only [Release.pairCall, Encoder.finish] at h
    grind

theorem set_same {α : Type} {l : List α} {i : Nat} {a : α} (h : l[i]? = some a) : l.set i a = l := by
  apply List.ext_getElem?
  intro j
  by_cases hj : i = j
  · subst hj; rw [getElem?_set_same h, h]
  · rw [getElem?_set_other (Ne.symm hj)]

theorem Encs.store {encoders : List (Option Nat)} {impls : List (Option EncoderObject)} {writers : List (Option Coder)} {E : List Enc}
    (h : Encs encoders impls writers E) {e : Nat} {y : Enc} (he : E[e]? = some y) (hl : y.live = true) {n : Encoder}
    (hf : n.flags = y.enc.flags) (hm : n.lookForTargetMatches = y.enc.lookForTargetMatches) :
    Encs encoders (impls.set e (some { y.object e with allowed := n.allowed })) (writers.set e (some n.coder))
      (E.set e { y with enc := n }) where
  handles := by simp [h.handles]
  implsLen := by simp [h.implsLen]
  writersLen := by simp [h.writersLen]
  live := by
    intro e' y' hy hlive
    rcases getElem?_set hy with ⟨rfl, rfl, _⟩ | ⟨hne, hy⟩
    · obtain ⟨k1, k2, k3⟩ := h.live e' y he hl
      refine ⟨k1, ?_, getElem?_set_same k3⟩
      rw [getElem?_set_same k2]
      simp only [Enc.object, hf, hm]
    · rw [getElem?_set_other hne, getElem?_set_other hne]
      exact h.live e' y' hy hlive
  gone := by
    intro e' y' hy hlive
    rcases getElem?_set hy with ⟨rfl, rfl, _⟩ | ⟨hne, hy⟩
    · rw [show y.live = false from hlive] at hl; cases hl
    · rw [getElem?_set_other hne, getElem?_set_other hne]
      exact h.gone e' y' hy hlive

theorem Match.store {D : List Dict} {E : List Enc} (h : Match D E) {e : Nat} {y : Enc} (he : E[e]? = some y) {n : Encoder}
    (hn : n.engine = y.enc.engine) : Match D (E.set e { y with enc := n }) := by
  intro e' y' hy
  rcases getElem?_set hy with ⟨rfl, rfl, _⟩ | ⟨hne, hy⟩
  · obtain ⟨x, k1, k2, k3⟩ := h e' y he
    exact ⟨x, k1, hn.trans k2, k3⟩
  · exact h e' y' hy

/-- The encoder as the functions of `Model.Release` see it. -/
theorem Enc.whole (y : Enc) (e : Nat) {x : Engine} (h : y.enc.engine = x) :
    ({ engine := x, coder := y.enc.coder, flags := (y.object e).flags, lookForTargetMatches := (y.object e).lookForTargetMatches,
       allowed := (y.object e).allowed } : Encoder) = y.enc := by
  subst h; rfl

/-- A call of an encoder. -/
theorem step_call {w : World} {D : List Dict} {E : List Enc} (h : Inv w D E) {e : Nat} {y : Enc} (he : E[e]? = some y)
    (hl : y.live = true) (c : EncoderCall) :
    (∃ f, Release.pairCall y.enc (.encoder c) = .error f ∧ w.step (.call e c) = .error (.fault f)) ∨
    ∃ r n w', Release.pairCall y.enc (.encoder c) = .ok (r, n) ∧ w.step (.call e c) = .ok (some r, w') ∧
      Inv w' D (E.set e { y with enc := n }) := by
  obtain ⟨h1, h2, h3⟩ := h.encs.live e y he hl
  obtain ⟨x, hx1, hx2, hx3⟩ := h.fit e y he
  have hload := h.dicts.load hx1 (hx3 hl)
  have key : ∀ {r : EncoderReply} {n : Encoder}, Release.pairCall y.enc (.encoder c) = .ok (r, n) → ∀ {w' : World},
      Dicts w'.dictionaries w'.engines w'.arrays w'.hashes D → w'.encoders = w.encoders →
      w'.impls = w.impls.set e (some { y.object e with allowed := n.allowed }) → w'.writers = w.writers.set e (some n.coder) →
      Inv w' D (E.set e { y with enc := n }) := by
    intro r n hp w' k1 k2 k3 k4
    obtain ⟨q1, q2, q3⟩ := pairCall_keeps hp
    refine ⟨k1, ?_, h.fit.store he q1⟩
    rw [k2, k3, k4]
    exact h.encs.store he hl q2 q3
  cases c with
  | start =>
    have hstep : w.step (.call e .start) = (do
      let (r, w) ← w.start e
      .ok (some r, w)) := rfl
    rw [hstep]
    unfold World.start
    rw [at_some h1, ok_bind, at_some h2, ok_bind]
    rw [show (y.object e).coder = e from rfl, at_some h3, ok_bind, show (y.object e).engine = y.dict from rfl, hload, ok_bind]
    rw [Enc.whole y e hx2]
    have hp : Release.pairCall y.enc (.encoder .start) = (Release.start y.enc).map fun r => (⟨r.1, r.2.1⟩, r.2.2) := rfl
    cases hs : Release.start y.enc with
    | error f => rw [hs] at hp; exact Or.inl ⟨f, hp, rfl⟩
    | ok r =>
      rw [hs] at hp
      exact Or.inr ⟨_, _, _, hp, rfl, key hp h.dicts rfl rfl rfl⟩
  | chunk data =>
    have hstep : w.step (.call e (.chunk data)) = (do
      let (r, w) ← (w.enter data).chunk e (.caller (w.enter data).call)
      .ok (some r, w.leave)) := rfl
    rw [hstep]
    have hread : (w.enter data).read (.caller (w.enter data).call) = .ok data := by
      simp [World.read, World.enter]
    have hload' : (w.enter data).loadEngine y.dict = .ok x.engine :=
      Dicts.load (w := w.enter data) (show Dicts (w.enter data).dictionaries _ _ _ D from h.dicts) hx1 (hx3 hl)
    have hp : Release.pairCall y.enc (.encoder (.chunk data)) = (Release.chunk y.enc data).map fun r => (⟨r.1, r.2.1⟩, r.2.2) := rfl
    unfold World.chunk
    rw [at_some (show (w.enter data).encoders[e]? = _ from h1), ok_bind, at_some (show (w.enter data).impls[e]? = _ from h2), ok_bind]
    by_cases ha : y.enc.allowed = false
    · rw [if_pos (show (y.object e).allowed = false from ha)]
      have hc : Release.chunk y.enc data = .ok (false, [], y.enc) := by simp [Release.chunk, ha]
      rw [hc] at hp
      refine Or.inr ⟨_, _, _, hp, rfl, ?_⟩
      rw [set_same (by rw [he])]
      exact ⟨h.dicts, h.encs, h.fit⟩
    rw [if_neg (show ¬ (y.object e).allowed = false from ha)]
    rw [show (y.object e).coder = e from rfl, at_some (show (w.enter data).writers[e]? = _ from h3), ok_bind,
      show (y.object e).engine = y.dict from rfl, hload', ok_bind, hread, ok_bind, Enc.whole y e hx2]
    cases hs : Release.chunk y.enc data with
    | error f => rw [hs] at hp; exact Or.inl ⟨f, hp, rfl⟩
    | ok r =>
      rw [hs] at hp
      rw [show faulty (Except.ok r) = .ok r from rfl, ok_bind]
      by_cases hr : r.1 = false
      · rw [if_pos hr]
        exact Or.inr ⟨_, _, _, hp, rfl, key hp h.dicts rfl rfl rfl⟩
      rw [if_neg hr]
      unfold World.targetHash
      rw [hread, ok_bind]
      split
      · exact Or.inr ⟨_, _, _, hp, rfl, key hp h.dicts rfl rfl rfl⟩
      · obtain ⟨q, hq⟩ := create_unpopulated (s := data) (o := toInt32 x.engine.dictionary.length)
        rw [hq, show faulty (Except.ok q) = .ok q from rfl, ok_bind]
        cases q with
        | none => exact Or.inr ⟨_, _, _, hp, rfl, key hp h.dicts rfl rfl rfl⟩
        | some bh =>
          simp only
          rw [ok_bind]
          simp only [World.deleteTargetHash]
          rw [delete_some (getElem?_snoc_last rfl), ok_bind]
          refine Or.inr ⟨_, _, _, hp, rfl, key hp ?_ rfl rfl rfl⟩
          have := h.dicts.dead_hash
          have hset : ∀ (l : List (Option HashObject)) (a : Option HashObject), (l ++ [a]).set l.length none = l ++ [none] := by simp
          simp only [World.enter, World.leave, World.store, hset]
          exact this
  | finish =>
    have hstep : w.step (.call e .finish) = (do
      let (r, w) ← w.finish e
      .ok (some r, w)) := rfl
    rw [hstep]
    unfold World.finish
    rw [at_some h1, ok_bind, at_some h2, ok_bind]
    rw [show (y.object e).coder = e from rfl, at_some h3, ok_bind]
    have hp : Release.pairCall y.enc (.encoder .finish) = .ok (⟨y.enc.finish.1, y.enc.finish.2.1⟩, y.enc.finish.2.2) := rfl
    have hf : ∀ x : Engine, (Encoder.finish { y.enc with engine := x }).1 = y.enc.finish.1 ∧
        (Encoder.finish { y.enc with engine := x }).2.1 = y.enc.finish.2.1 ∧
        (Encoder.finish { y.enc with engine := x }).2.2.coder = y.enc.finish.2.2.coder ∧
        (Encoder.finish { y.enc with engine := x }).2.2.allowed = y.enc.finish.2.2.allowed := by
      intro x
      unfold Encoder.finish
      simp only
      split
      · exact ⟨rfl, rfl, rfl, rfl⟩
      · split <;> exact ⟨rfl, rfl, rfl, rfl⟩
    obtain ⟨f1, f2, f3, f4⟩ := hf { dictionary := [], hashed := none }
    refine Or.inr ⟨_, _, _, hp, ?_, key hp (w' := w.store e (y.object e) y.enc.finish.2.2) h.dicts rfl rfl rfl⟩
    simp only [World.store, Enc.object]
    rw [ok_bind]
    simp only [f1, f2, f3, f4]

/-! ## All steps -/

open Vcd.Spec (obeyed dictionariesOf encodersOf concerns callsOf repliesTo)

/-- Which dictionaries exist. -/
def lives (D : List Dict) : List Bool := D.map (·.live)

/-- Which dictionaries the encoders that exist are for. -/
def owners (E : List Enc) : List (Option Nat) := E.map fun y => if y.live then some y.dict else none

/-- What an encoder has been constructed with. -/
def Enc.key (y : Enc) : Nat × Nat × Bool := (y.dict, y.enc.flags, y.enc.lookForTargetMatches)

/-- Encoder `e` is for dictionary `d`, with these contents. -/
structure Fits (DD : List Bytes) (ED : List (Nat × Nat × Bool)) (d e flags : Nat) (matching : Bool) (contents : Bytes) : Prop where
  dict : DD[d]? = some contents
  enc : ∀ z, ED[e]? = some z → z = (d, flags, matching)

/-- What has become of a dictionary and an encoder for it; if the encoder has not been constructed yet, it is as if it were
constructed now. -/
def now (D : List Dict) (E : List Enc) (d e flags : Nat) (matching : Bool) (contents : Bytes) : Encoder :=
  match E[e]? with
  | some y => y.enc
  | none =>
    match D[d]? with
    | some x => Encoder.new x.engine flags matching
    | none => Encoder.newPair contents flags matching

theorem now_enc {D : List Dict} {E : List Enc} {d e flags : Nat} {matching : Bool} {contents : Bytes} {y : Enc} (h : E[e]? = some y) :
    now D E d e flags matching contents = y.enc := by
  unfold now; rw [h]

theorem now_new {D : List Dict} {E : List Enc} {d e flags : Nat} {matching : Bool} {contents : Bytes} {x : Dict} (h : E[e]? = none)
    (hd : D[d]? = some x) : now D E d e flags matching contents = Encoder.new x.engine flags matching := by
  unfold now; rw [h]; simp only; rw [hd]

theorem now_pair {D : List Dict} {E : List Enc} {d e flags : Nat} {matching : Bool} {contents : Bytes} (h : E[e]? = none)
    (hd : D[d]? = none) : now D E d e flags matching contents = Encoder.newPair contents flags matching := by
  unfold now; rw [h]; simp only; rw [hd]

theorem initCall_dictionary {g g' : Engine} {r : Bool} (h : Release.initCall g = .ok (r, g')) : g'.dictionary = g.dictionary := by
  unfold Release.initCall at h
  split at h
  · cases h; rfl
  · split at h
    · cases h
    · cases h; rfl
    · cases h; rfl

theorem lives_some {D : List Dict} {d : Nat} (h : (lives D)[d]? = some true) : ∃ x, D[d]? = some x ∧ x.live = true := by
  unfold lives at h
  rw [List.getElem?_map, Option.map_eq_some_iff] at h
  exact h

theorem owners_some {E : List Enc} {e : Nat} (h : (owners E)[e]?.join.isSome = true) : ∃ y, E[e]? = some y ∧ y.live = true := by
  unfold owners at h
  rw [List.getElem?_map] at h
  cases hy : E[e]? with
  | none => rw [hy] at h; cases h
  | some y =>
    rw [hy] at h
    refine ⟨y, rfl, ?_⟩
    cases hl : y.live with
    | true => rfl
    | false => simp [hl] at h

theorem owners_free {E : List Enc} {d : Nat} (h : (owners E).contains (some d) = false) (e : Nat) (y : Enc) (he : E[e]? = some y)
    (hl : y.live = true) : y.dict ≠ d := by
  intro hk
  have : some d ∈ owners E := by
    unfold owners
    rw [List.mem_map]
    exact ⟨y, List.mem_of_getElem? he, by rw [hl, hk]; rfl⟩
  rw [← List.contains_iff_mem, h] at this
  cases this

theorem Fits.existing {DD : List Bytes} {ED : List (Nat × Nat × Bool)} {d e flags : Nat} {matching : Bool} {contents : Bytes}
    (h : Fits DD ED d e flags matching contents) {E : List Enc} {l : List (Nat × Nat × Bool)} (hE : ED = E.map Enc.key ++ l) {y : Enc}
    (he : E[e]? = some y) : y.dict = d := by
  have hk : ED[e]? = some y.key := by
    rw [hE, List.getElem?_append_left (by rw [List.length_map]; exact lt_of_getElem? he), List.getElem?_map, he]; rfl
  have := h.enc _ hk
  simp only [Enc.key, Prod.mk.injEq] at this
  exact this.1

/-- What a step does for a dictionary and an encoder. -/
def Follows (D : List Dict) (E : List Enc) (op : Op) (r : Option EncoderReply) (D' : List Dict) (E' : List Enc) (d e flags : Nat)
    (matching : Bool) (contents : Bytes) : Prop :=
  match concerns d e op with
  | none => now D' E' d e flags matching contents = now D E d e flags matching contents
  | some c => ∃ reply, r = some reply ∧
      Release.pairCall (now D E d e flags matching contents) c = .ok (reply, now D' E' d e flags matching contents)

theorem step_all {w : World} {D : List Dict} {E : List Enc} (h : Inv w D E) {op : Op} {ops : List Op}
    (ho : obeyed (lives D) (owners E) (op :: ops) = true) {DD : List Bytes} {ED : List (Nat × Nat × Bool)}
    (hD : DD = D.map (·.engine.dictionary) ++ dictionariesOf (op :: ops)) (hE : ED = E.map Enc.key ++ encodersOf (op :: ops)) :
    (∃ D' E' r w', w.step op = .ok (r, w') ∧ Inv w' D' E' ∧ obeyed (lives D') (owners E') ops = true ∧
      DD = D'.map (·.engine.dictionary) ++ dictionariesOf ops ∧ ED = E'.map Enc.key ++ encodersOf ops ∧
      ∀ d e flags matching contents, Fits DD ED d e flags matching contents → Follows D E op r D' E' d e flags matching contents) ∨
    ∃ f d e flags matching contents c, w.step op = .error (.fault f) ∧ Fits DD ED d e flags matching contents ∧
      concerns d e op = some c ∧ Release.pairCall (now D E d e flags matching contents) c = .error f := by
  cases op with
  | dictionary contents =>
    obtain ⟨w', h1, h2⟩ := step_dictionary h contents
    refine Or.inl ⟨_, E, none, w', h1, h2, ?_, ?_, hE, ?_⟩
    · simpa [lives, obeyed] using ho
    · rw [hD]; simp [dictionariesOf]
    · intro d e flags matching c hf
      show now _ _ _ _ _ _ _ = now _ _ _ _ _ _ _
      cases hy : E[e]? with
      | some y => rw [now_enc hy, now_enc hy]
      | none =>
        cases hx : D[d]? with
        | some x => rw [now_new hy hx, now_new hy (getElem?_snoc_left hx)]
        | none =>
          rw [now_pair hy hx]
          have hlen : D.length ≤ d := List.getElem?_eq_none_iff.1 hx
          by_cases hk : d = D.length
          · rw [now_new hy (getElem?_snoc_last hk.symm)]
            have := hf.dict
            rw [hD, hk, List.getElem?_append_right (by simp)] at this
            simp [dictionariesOf] at this
            rw [this]; rfl
          · rw [now_pair hy (by rw [List.getElem?_eq_none_iff, List.length_append]; simp; omega)]
  | init d =>
    simp only [obeyed, Bool.and_eq_true, beq_iff_eq] at ho
    obtain ⟨x, hd, hl⟩ := lives_some ho.1
    have hstep := step_init h hd hl
    cases hi : Release.initCall x.engine with
    | error f =>
      rw [hi] at hstep
      refine Or.inr ⟨f, d, ED.length, 0, false, x.engine.dictionary, .init, hstep, ⟨?_, ?_⟩, by simp [concerns], ?_⟩
      · rw [hD, List.getElem?_append_left (by rw [List.length_map]; exact lt_of_getElem? hd), List.getElem?_map, hd]; rfl
      · intro z hz; rw [List.getElem?_eq_none (Nat.le_refl _)] at hz; cases hz
      · rw [now_new (by rw [List.getElem?_eq_none_iff, hE]; simp) hd]
        simp only [Release.pairCall, Encoder.new, hi]
    | ok p =>
      obtain ⟨ret, engine⟩ := p
      rw [hi] at hstep
      obtain ⟨w', h1, h2⟩ := hstep
      refine Or.inl ⟨_, _, _, w', h1, h2, ?_, ?_, ?_, ?_⟩
      · have e1 : lives (D.set d { x with engine }) = lives D := by
          unfold lives
          rw [List.map_set]
          exact set_same (by rw [List.getElem?_map, hd]; rfl)
        have e2 : owners (E.map (withEngine d engine)) = owners E := by
          unfold owners
          rw [List.map_map]
          apply List.map_congr_left
          intro y _
          simp only [Function.comp, withEngine_live, withEngine_dict]
        rw [e1, e2]; exact ho.2
      · rw [List.map_set, set_same (by rw [List.getElem?_map, hd]; exact congrArg some (initCall_dictionary hi).symm)]
        exact hD
      · rw [hE, List.map_map]
        congr 1
        apply List.map_congr_left
        intro y _
        simp only [Function.comp, Enc.key, withEngine_dict]
        unfold withEngine
        split <;> rfl
      · intro d' e flags matching c hf
        unfold Follows
        by_cases hk : d = d'
        · subst hk
          rw [show concerns d e (.init d) = some .init by simp [concerns]]
          refine ⟨_, rfl, ?_⟩
          cases hy : E[e]? with
          | some y =>
            have hyd := hf.existing hE hy
            rw [now_enc hy, now_enc (y := withEngine d engine y) (by rw [List.getElem?_map, hy]; rfl)]
            obtain ⟨x', k1, k2, _⟩ := h.fit e y hy
            rw [hyd, hd] at k1
            cases k1
            simp only [Release.pairCall, k2, hi, withEngine, hyd, if_pos]
          | none =>
            rw [now_new hy hd, now_new (by rw [List.getElem?_map, hy]; rfl) (getElem?_set_same hd)]
            simp only [Release.pairCall, Encoder.new, hi]
        · rw [show concerns d' e (.init d) = none by simp [concerns, hk]]
          cases hy : E[e]? with
          | some y =>
            have hyd := hf.existing hE hy
            rw [now_enc hy, now_enc (y := withEngine d engine y) (by rw [List.getElem?_map, hy]; rfl)]
            unfold withEngine
            rw [if_neg (by rw [hyd]; exact fun h' => hk h'.symm)]
          | none =>
            cases hx : D[d']? with
            | some x' =>
              rw [now_new hy hx, now_new (by rw [List.getElem?_map, hy]; rfl) (by rw [getElem?_set_other (Ne.symm hk)]; exact hx)]
            | none =>
              rw [now_pair hy hx, now_pair (by rw [List.getElem?_map, hy]; rfl) (by rw [getElem?_set_other (Ne.symm hk)]; exact hx)]
  | deleteDictionary d =>
    simp only [obeyed, Bool.and_eq_true, beq_iff_eq, Bool.not_eq_true'] at ho
    obtain ⟨⟨ho1, ho2⟩, ho3⟩ := ho
    obtain ⟨x, hd, hl⟩ := lives_some ho1
    obtain ⟨w', h1, h2⟩ := step_deleteDictionary h hd hl (owners_free ho2)
    refine Or.inl ⟨_, E, none, w', h1, h2, ?_, ?_, hE, ?_⟩
    · unfold lives
      rw [List.map_set]
      exact ho3
    · rw [List.map_set, set_same (by rw [List.getElem?_map, hd]; rfl)]
      exact hD
    · intro d' e flags matching c hf
      show now _ _ _ _ _ _ _ = now _ _ _ _ _ _ _
      cases hy : E[e]? with
      | some y => rw [now_enc hy, now_enc hy]
      | none =>
        cases hx : D[d']? with
        | some x' =>
          by_cases hk : d' = d
          · subst hk
            rw [hd] at hx
            cases hx
            rw [now_new hy hd, now_new hy (getElem?_set_same hd)]
          · rw [now_new hy hx, now_new hy (by rw [getElem?_set_other hk]; exact hx)]
        | none =>
          rw [now_pair hy hx, now_pair hy (by rw [List.getElem?_eq_none_iff] at hx ⊢; simpa using hx)]
  | encoder d flags matching =>
    simp only [obeyed, Bool.and_eq_true, beq_iff_eq] at ho
    obtain ⟨x, hd, hl⟩ := lives_some ho.1
    obtain ⟨w', h1, h2⟩ := step_encoder h hd hl flags matching
    refine Or.inl ⟨D, _, none, w', h1, h2, ?_, hD, ?_, ?_⟩
    · simpa [owners] using ho.2
    · rw [hE]; simp [encodersOf, Enc.key, Encoder.new]
    · intro d' e flags' matching' c hf
      show now _ _ _ _ _ _ _ = now _ _ _ _ _ _ _
      cases hy : E[e]? with
      | some y => rw [now_enc hy, now_enc (getElem?_snoc_left hy)]
      | none =>
        have hlen : E.length ≤ e := List.getElem?_eq_none_iff.1 hy
        by_cases hk : e = E.length
        · have hz := hf.enc (d, flags, matching) (by
            rw [hE, hk, List.getElem?_append_right (by simp)]
            simp [encodersOf])
          simp only [Prod.mk.injEq] at hz
          obtain ⟨rfl, rfl, rfl⟩ := hz
          rw [now_new hy hd, now_enc (getElem?_snoc_last hk.symm)]
        · have hn : (E ++ [(⟨d, Encoder.new x.engine flags matching, true⟩ : Enc)])[e]? = none := by
            rw [List.getElem?_eq_none_iff, List.length_append]; simp; omega
          cases hx : D[d']? with
          | some x' => rw [now_new hy hx, now_new hn hx]
          | none => rw [now_pair hy hx, now_pair hn hx]
  | call e c =>
    simp only [obeyed, Bool.and_eq_true] at ho
    obtain ⟨y, he, hl⟩ := owners_some ho.1
    rcases step_call h he hl c with ⟨f, k1, k2⟩ | ⟨r, n, w', k1, k2, k3⟩
    · obtain ⟨x, hx, _⟩ := h.fit e y he
      refine Or.inr ⟨f, y.dict, e, y.enc.flags, y.enc.lookForTargetMatches, x.engine.dictionary, .encoder c, k2, ⟨?_, ?_⟩,
        by simp [concerns], by rw [now_enc he]; exact k1⟩
      · rw [hD, List.getElem?_append_left (by rw [List.length_map]; exact lt_of_getElem? hx), List.getElem?_map, hx]; rfl
      · intro z hz
        rw [hE, List.getElem?_append_left (by rw [List.length_map]; exact lt_of_getElem? he), List.getElem?_map, he] at hz
        cases hz; rfl
    · obtain ⟨q1, q2, q3⟩ := pairCall_keeps k1
      refine Or.inl ⟨D, _, _, w', k2, k3, ?_, hD, ?_, ?_⟩
      · unfold owners
        rw [List.map_set, set_same (by rw [List.getElem?_map, he]; rfl)]
        exact ho.2
      · rw [List.map_set, set_same (by rw [List.getElem?_map, he]; simp [Enc.key, q2, q3])]
        exact hE
      · intro d e' flags matching contents hf
        unfold Follows
        by_cases hk : e = e'
        · subst hk
          rw [show concerns d e (.call e c) = some (.encoder c) by simp [concerns]]
          refine ⟨_, rfl, ?_⟩
          rw [now_enc he, now_enc (getElem?_set_same he)]
          exact k1
        · rw [show concerns d e' (.call e c) = none by simp [concerns, hk]]
          unfold now
          rw [getElem?_set_other (Ne.symm hk)]
  | deleteEncoder e =>
    simp only [obeyed, Bool.and_eq_true] at ho
    obtain ⟨y, he, hl⟩ := owners_some ho.1
    obtain ⟨w', h1, h2⟩ := step_deleteEncoder h he hl
    refine Or.inl ⟨D, _, none, w', h1, h2, ?_, hD, ?_, ?_⟩
    · unfold owners
      rw [List.map_set]
      exact ho.2
    · rw [List.map_set, set_same (by rw [List.getElem?_map, he]; rfl)]
      exact hE
    · intro d e' flags matching contents hf
      show now _ _ _ _ _ _ _ = now _ _ _ _ _ _ _
      by_cases hk : e' = e
      · subst hk
        rw [now_enc he, now_enc (getElem?_set_same he)]
      · unfold now
        rw [getElem?_set_other hk]

/-! ## Programs -/

theorem repliesTo_cons (d e : Nat) (op : Op) (ops : List Op) (r : Option EncoderReply) (rs : List (Option EncoderReply)) :
    repliesTo d e (op :: ops) (r :: rs) =
      (if (concerns d e op).isSome then r else none).toList ++ repliesTo d e ops rs := by
  unfold repliesTo
  rw [List.zip_cons_cons, List.filterMap_cons]
  simp only
  cases hc : (if (concerns d e op).isSome then r else none) <;> simp

theorem callsOf_cons (d e : Nat) (op : Op) (ops : List Op) :
    callsOf d e (op :: ops) = (concerns d e op).toList ++ callsOf d e ops := by
  unfold callsOf
  rw [List.filterMap_cons]
  cases hc : concerns d e op <;> simp

theorem pairCalls_cons (p : Encoder) (c : PairCall) (cs : List PairCall) (r : EncoderReply) (p' : Encoder)
    (h : Release.pairCall p c = .ok (r, p')) :
    Release.pairCalls p (c :: cs) = (r :: (Release.pairCalls p' cs).1, (Release.pairCalls p' cs).2) := by
  simp only [Release.pairCalls, h]

/-- A step, and then what follows. -/
theorem Follows.prepend {D D' : List Dict} {E E' : List Enc} {op : Op} {r : Option EncoderReply} {d e flags : Nat} {matching : Bool}
    {contents : Bytes} (h : Follows D E op r D' E' d e flags matching contents) {ops ops' : List Op} {rs : List (Option EncoderReply)}
    {stop : Option Fault}
    (hr : Release.pairCalls (now D' E' d e flags matching contents) (callsOf d e ops) = (repliesTo d e ops' rs, stop)) :
    Release.pairCalls (now D E d e flags matching contents) (callsOf d e (op :: ops)) = (repliesTo d e (op :: ops') (r :: rs), stop) := by
  rw [callsOf_cons, repliesTo_cons]
  unfold Follows at h
  cases hc : concerns d e op with
  | none =>
    rw [hc] at h
    simp only at h
    rw [← h]
    simpa using hr
  | some c =>
    rw [hc] at h
    obtain ⟨reply, rfl, hp⟩ := h
    simp only [Option.toList_some, List.singleton_append, Option.isSome_some, if_true]
    rw [pairCalls_cons _ _ _ _ _ hp, hr]

theorem run_all {DD : List Bytes} {ED : List (Nat × Nat × Bool)} (ops : List Op) : ∀ {w : World} {D : List Dict} {E : List Enc}, Inv w D E →
    obeyed (lives D) (owners E) ops = true → DD = D.map (·.engine.dictionary) ++ dictionariesOf ops →
    ED = E.map Enc.key ++ encodersOf ops →
    (∃ D' E', Inv (w.run ops).2.2 D' E') ∧
    (∀ d e flags matching contents, Fits DD ED d e flags matching contents →
      Release.pairCalls (now D E d e flags matching contents) (callsOf d e (ops.take (w.run ops).1.length)) =
        (repliesTo d e ops (w.run ops).1, none)) ∧
    (match (w.run ops).2.1 with
      | none => (w.run ops).1.length = ops.length
      | some b => ∃ f d e flags matching contents, b = .fault f ∧ Fits DD ED d e flags matching contents ∧
        Release.pairCalls (now D E d e flags matching contents) (callsOf d e (ops.take ((w.run ops).1.length + 1))) =
          (repliesTo d e ops (w.run ops).1, some f)) := by
  induction ops with
  | nil =>
    intro w D E h _ _ _
    exact ⟨⟨D, E, h⟩, fun _ _ _ _ _ _ => rfl, rfl⟩
  | cons op ops ih =>
    intro w D E h ho hD hE
    rcases step_all h ho hD hE with ⟨D', E', r, w', k1, k2, k3, k4, k5, k6⟩ | ⟨f, d, e, flags, matching, contents, c, k1, k2, k3, k4⟩
    · obtain ⟨i1, i2, i3⟩ := ih k2 k3 k4 k5
      have hrun : w.run (op :: ops) = (r :: (w'.run ops).1, (w'.run ops).2) := by
        simp only [World.run, k1]
      rw [hrun]
      refine ⟨i1, ?_, ?_⟩
      · intro d e flags matching contents hf
        rw [List.length_cons, List.take_succ_cons]
        exact (k6 d e flags matching contents hf).prepend (i2 d e flags matching contents hf)
      · simp only
        cases hs : (w'.run ops).2.1 with
        | none =>
          rw [hs] at i3
          simp only [List.length_cons, i3]
        | some b =>
          rw [hs] at i3
          obtain ⟨f, d, e, flags, matching, contents, j1, j2, j3⟩ := i3
          refine ⟨f, d, e, flags, matching, contents, j1, j2, ?_⟩
          rw [List.length_cons, List.take_succ_cons]
          exact (k6 d e flags matching contents j2).prepend j3
    · have hrun : w.run (op :: ops) = ([], some (.fault f), w) := by
        simp only [World.run, k1]
      rw [hrun]
      refine ⟨⟨D, E, h⟩, fun _ _ _ _ _ _ => by simp [callsOf, repliesTo, Release.pairCalls], ?_⟩
      refine ⟨f, d, e, flags, matching, contents, rfl, k2, ?_⟩
      simp only [List.length_nil, Nat.zero_add, List.take_succ_cons, List.take_zero]
      rw [callsOf_cons, k3]
      simp [callsOf, repliesTo, Release.pairCalls, k4]

/-- If the caller has deleted all that it has constructed, nothing is left. -/
theorem Inv.no_leak {w : World} {D : List Dict} {E : List Enc} (h : Inv w D E) (hd : ∀ x ∈ w.dictionaries, x = none)
    (he : ∀ x ∈ w.encoders, x = none) : (∀ x ∈ w.arrays, x = none) ∧ (∀ x ∈ w.engines, x = none) ∧ (∀ x ∈ w.hashes, x = none) ∧
      (∀ x ∈ w.writers, x = none) ∧ (∀ x ∈ w.impls, x = none) := by
  have engines : ∀ (d : Nat) (o : EngineObject), w.engines[d]? ≠ some (some o) := by
    intro d o ho
    have hlt := lt_of_getElem? ho
    rw [h.dicts.enginesLen] at hlt
    have hx : D[d]? = some D[d] := List.getElem?_eq_getElem hlt
    cases hl : D[d].live with
    | true =>
      have := hd _ (List.mem_of_getElem? (h.dicts.live d _ hx hl).1)
      cases this
    | false =>
      rw [(h.dicts.gone d _ hx hl).2] at ho; cases ho
  have gone : ∀ e, e < E.length → w.impls[e]? = some none ∧ w.writers[e]? = some none := by
    intro e hlt
    have hx : E[e]? = some E[e] := List.getElem?_eq_getElem hlt
    cases hl : E[e].live with
    | true =>
      have := he _ (List.mem_of_getElem? (h.encs.live e _ hx hl).1)
      cases this
    | false => exact (h.encs.gone e _ hx hl).2
  refine ⟨?_, ?_, ?_, ?_, ?_⟩
  · intro x hx
    obtain ⟨i, hi⟩ := List.getElem?_of_mem hx
    cases x with
    | none => rfl
    | some b => obtain ⟨d, o, k, _⟩ := h.dicts.arraysOwned i b hi; exact absurd k (engines d o)
  · intro x hx
    obtain ⟨i, hi⟩ := List.getElem?_of_mem hx
    cases x with
    | none => rfl
    | some b => exact absurd hi (engines i b)
  · intro x hx
    obtain ⟨i, hi⟩ := List.getElem?_of_mem hx
    cases x with
    | none => rfl
    | some b => obtain ⟨d, o, k, _⟩ := h.dicts.hashesOwned i b hi; exact absurd k (engines d o)
  · intro x hx
    obtain ⟨i, hi⟩ := List.getElem?_of_mem hx
    have hlt := lt_of_getElem? hi
    rw [h.encs.writersLen] at hlt
    rw [(gone i hlt).2] at hi
    cases hi; rfl
  · intro x hx
    obtain ⟨i, hi⟩ := List.getElem?_of_mem hx
    have hlt := lt_of_getElem? hi
    rw [h.encs.implsLen] at hlt
    rw [(gone i hlt).1] at hi
    cases hi; rfl

end Vcd.Ownership
