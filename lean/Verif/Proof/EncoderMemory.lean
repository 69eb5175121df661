import Verif.Spec.EncoderMemory
import Verif.Proof.Ownership
import Verif.Proof.ReleaseAny

/-!
# Lemmas for C76
-/

namespace Vcd
open Spec hiding Op

/-! ## The tables of a block hash -/

namespace Release

theorem addBlock_size {bh bh' : BlockHash} {v : UInt32} (h : addBlock bh v = .ok bh') :
    bh'.source = bh.source ∧ tableBytes bh' = tableBytes bh := by
  unfold addBlock at h
  repeat' split at h
  all_goals first | (cases h; exact ⟨rfl, by simp [tableBytes]⟩) | cases h

theorem addBlocksLoop_size {lim : Int} : ∀ {fuel : Nat} {bh bh' : BlockHash} {pos : Nat},
    addBlocksLoop lim fuel bh pos = .ok bh' → tableBytes bh' = tableBytes bh
  | 0, _, _, _, h => by cases h
  | fuel + 1, bh, bh', pos, h => by
    unfold addBlocksLoop at h
    split at h
    · cases h1 : readBlock bh.source pos with
      | error f => rw [h1] at h; cases h
      | ok block =>
        rw [h1] at h
        cases h2 : addBlock bh (RollingHash.hash block) with
        | error f => simp only [bind, Except.bind, h2] at h; cases h
        | ok b =>
          simp only [bind, Except.bind, h2] at h
          rw [addBlocksLoop_size h, (addBlock_size h2).2]
    · cases h; rfl

theorem addAll_size {bh bh' : BlockHash} {i : Int} (h : addAllBlocksThroughIndex bh i = .ok bh') :
    tableBytes bh' = tableBytes bh := by
  unfold addAllBlocksThroughIndex at h
  split at h
  · cases h; rfl
  split at h
  · cases h; rfl
  split at h
  · cases h; rfl
  · exact addBlocksLoop_size h

/-- The tables of a block hash for `n` bytes take at most `5n/2 + 4` bytes. -/
theorem create_size {s : Bytes} (hs : s.length < size64) {o : Int} {p : Bool} {bh : BlockHash}
    (h : create s o p = .ok (some bh)) : 2 * tableBytes bh ≤ 5 * s.length + 8 := by
  obtain ⟨j, hj, _, hj2⟩ := calcTableSize_spec s.length hs
  have ht : calcTableSize s.length ≤ 2 * (s.length / 4) + 1 := by
    rw [hj]
    rcases hj2 with h | h
    · omega
    · subst h; omega
  have hk : kBlockSize = 16 := rfl
  unfold create at h
  simp only at h
  split at h
  · cases h
  · split at h
    · revert h
      cases h1 : addAllBlocksThroughIndex _ (toInt32 s.length) with
      | error f => intro h; cases h
      | ok b =>
        intro h
        cases h
        rw [addAll_size h1]
        simp only [tableBytes, List.length_replicate, hk]
        omega
    · cases h
      simp only [tableBytes, List.length_replicate, hk]
      omega

end Release

/-! ## Sums -/

/-- A sum over the numbers below `n`. -/
def sumTo (f : Nat → Nat) : Nat → Nat
  | 0 => 0
  | n + 1 => sumTo f n + f n

theorem sumTo_congr {f g : Nat → Nat} : ∀ {n : Nat}, (∀ i, i < n → f i = g i) → sumTo f n = sumTo g n
  | 0, _ => rfl
  | n + 1, h => by
    simp only [sumTo, h n (Nat.lt_succ_self n), sumTo_congr (n := n) fun i hi => h i (Nat.lt_succ_of_lt hi)]

theorem sumTo_zero {f : Nat → Nat} : ∀ {n : Nat}, (∀ i, i < n → f i = 0) → sumTo f n = 0
  | 0, _ => rfl
  | n + 1, h => by
    simp only [sumTo, h n (Nat.lt_succ_self n), sumTo_zero (n := n) fun i hi => h i (Nat.lt_succ_of_lt hi)]

/-- Taking one summand out. -/
theorem sumTo_without (f : Nat → Nat) (k : Nat) : ∀ (n : Nat), sumTo f n ≤ sumTo (fun i => if i = k then 0 else f i) n + f k
  | 0 => by simp [sumTo]
  | n + 1 => by
    by_cases hn : n = k
    · subst hn
      have : sumTo (fun i => if i = n then 0 else f i) n = sumTo f n :=
        sumTo_congr fun i hi => if_neg (by omega)
      simp only [sumTo, this, if_true]
      omega
    · have := sumTo_without f k n
      simp only [sumTo, if_neg hn]
      omega

/-- If each summand on the left belongs to one on the right that is not smaller, and no two to the same. -/
theorem sumTo_le {own : Nat → Nat → Prop} (inj : ∀ i i' d, own i d → own i' d → i = i') (g : Nat → Nat) (m : Nat) :
    ∀ (n : Nat) (f : Nat → Nat), (∀ i, i < m → f i ≠ 0 → ∃ d, d < n ∧ own i d ∧ f i ≤ g d) → sumTo f m ≤ sumTo g n
  | 0, f, h => by
    rw [sumTo_zero]
    · exact Nat.zero_le _
    · intro i hi
      by_cases h0 : f i = 0
      · exact h0
      · obtain ⟨d, hd, _⟩ := h i hi h0
        omega
  | n + 1, f, h => by
    by_cases hk : ∃ k, own k n ∧ f k ≤ g n
    · obtain ⟨k, k1, k2⟩ := hk
      have := sumTo_without f k m
      have ih := sumTo_le inj g m n (fun i => if i = k then 0 else f i) (by
        intro i hi hne
        by_cases hik : i = k
        · simp [hik] at hne
        · rw [if_neg hik] at hne ⊢
          obtain ⟨d, hd, h1, h2⟩ := h i hi hne
          refine ⟨d, ?_, h1, h2⟩
          by_cases hdn : d = n
          · subst hdn; exact absurd (inj _ _ _ h1 k1) hik
          · omega)
      simp only [sumTo]
      omega
    · have ih := sumTo_le inj g m n f (by
        intro i hi hne
        obtain ⟨d, hd, h1, h2⟩ := h i hi hne
        refine ⟨d, ?_, h1, h2⟩
        by_cases hdn : d = n
        · subst hdn; exact absurd ⟨i, h1, h2⟩ hk
        · omega)
      simp only [sumTo]
      omega

/-- A sum of a list. -/
theorem sum_eq_sumTo (l : List Nat) : l.sum = sumTo (fun i => l[i]?.getD 0) l.length := by
  have : ∀ n, n ≤ l.length → (l.take n).sum = sumTo (fun i => l[i]?.getD 0) n := by
    intro n
    induction n with
    | zero => intro _; simp [sumTo]
    | succ n ih =>
      intro hn
      rw [List.take_add_one, List.sum_append, ih (by omega)]
      have : n < l.length := by omega
      simp [sumTo, this]
  rw [← this l.length (Nat.le_refl _), List.take_length]

theorem bytesOf_eq {α : Type} (size : α → Nat) (l : List (Option α)) :
    bytesOf size l = sumTo (fun i => match l[i]? with | some (some x) => size x | _ => 0) l.length := by
  unfold bytesOf
  rw [sum_eq_sumTo, List.length_map]
  apply sumTo_congr
  intro i hi
  rw [List.getElem?_map, List.getElem?_eq_getElem hi]
  simp only [Option.map_some, Option.getD_some]
  cases l[i] <;> rfl

theorem sum_filterMap {α β : Type} (p : α → Bool) (f : α → β) (g : β → Nat) (l : List α) :
    ((l.filterMap fun a => if p a then some (f a) else none).map g).sum = (l.map fun a => if p a then g (f a) else 0).sum := by
  induction l with
  | nil => rfl
  | cons a l ih =>
    rw [List.filterMap_cons]
    cases hp : p a <;> simp [hp, ih]

theorem existing_eq (g : Bytes → Nat) (ops : List Ownership.Op) (w : Ownership.World)
    (hl : w.dictionaries.length = (dictionariesOf ops).length) :
    ((existing ops w).map g).sum = sumTo (fun d => match w.dictionaries[d]? with
      | some (some _) => ((dictionariesOf ops)[d]?.map g).getD 0
      | _ => 0) (dictionariesOf ops).length := by
  unfold existing
  rw [sum_filterMap (fun p : Bytes × Option Nat => p.2.isSome) (fun p => p.1) g, sum_eq_sumTo, List.length_map, List.length_zip, hl,
    Nat.min_self]
  apply sumTo_congr
  intro d hd
  rw [List.getElem?_map, List.getElem?_eq_getElem (l := (dictionariesOf ops).zip w.dictionaries) (by rw [List.length_zip]; omega),
    List.getElem?_eq_getElem hd, List.getElem?_eq_getElem (l := w.dictionaries) (by omega)]
  simp only [Option.map_some, Option.getD_some, List.getElem_zip]
  cases w.dictionaries[d] <;> simp

/-! ## What a property of an encoder alone says of a program -/

namespace Ownership

theorem run_keeps {DD : List Bytes} {ED : List (Nat × Nat × Bool)} (ops : List Op) : ∀ {w : World} {D : List Dict} {E : List Enc}, Inv w D E →
    obeyed (lives D) (owners E) ops = true → DD = D.map (·.engine.dictionary) ++ dictionariesOf ops →
    ED = E.map Enc.key ++ encodersOf ops → (w.run ops).2.1 = none →
    ∃ D' E', Inv (w.run ops).2.2 D' E' ∧ DD = D'.map (·.engine.dictionary) ∧ ED = E'.map Enc.key ∧
      ∀ d e flags matching contents, Fits DD ED d e flags matching contents → ∀ P : Encoder → Prop,
        (∀ p c r p', c ∈ callsOf d e ops → P p → Release.pairCall p c = .ok (r, p') → P p') →
        P (now D E d e flags matching contents) → P (now D' E' d e flags matching contents) := by
  induction ops with
  | nil =>
    intro w D E h _ hD hE _
    exact ⟨D, E, h, by simpa [dictionariesOf] using hD, by simpa [encodersOf] using hE, fun _ _ _ _ _ _ _ _ h => h⟩
  | cons op ops ih =>
    intro w D E h ho hD hE hstop
    rcases step_all h ho hD hE with ⟨D', E', r, w', k1, k2, k3, k4, k5, k6⟩ | ⟨f, d, e, flags, matching, contents, c, k1, k2, k3, k4⟩
    · have hrun : w.run (op :: ops) = (r :: (w'.run ops).1, (w'.run ops).2) := by
        simp only [World.run, k1]
      rw [hrun] at hstop ⊢
      obtain ⟨D2, E2, j1, j2, j3, j4⟩ := ih k2 k3 k4 k5 hstop
      refine ⟨D2, E2, j1, j2, j3, ?_⟩
      intro d e flags matching contents hf P hP h0
      refine j4 d e flags matching contents hf P (fun p c r p' hc => hP p c r p' ?_) ?_
      · rw [callsOf_cons]; exact List.mem_append_right _ hc
      · have hfol := k6 d e flags matching contents hf
        unfold Follows at hfol
        cases hc : concerns d e op with
        | none => rw [hc] at hfol; simp only at hfol; rw [hfol]; exact h0
        | some c =>
          rw [hc] at hfol
          obtain ⟨reply, _, hp⟩ := hfol
          exact hP _ c _ _ (by rw [callsOf_cons, hc]; exact List.mem_cons_self ..) h0 hp
    · have hrun : w.run (op :: ops) = ([], some (.fault f), w) := by
        simp only [World.run, k1]
      rw [hrun] at hstop
      cases hstop

end Ownership

/-! ## Between calls the strings of a writer are empty -/

namespace Release

/-- The engine sends nothing, or `Output` at the end. -/
theorem engineEncode_ends {e : Engine} {matching : Bool} {data : Bytes} {calls : List CoderCall}
    (h : engineEncode e matching data = .ok calls) : calls = [] ∨ ∃ pre, calls = pre ++ [.output] := by
  unfold engineEncode at h
  split at h
  · cases h; exact Or.inl rfl
  split at h
  · cases h; exact Or.inl rfl
  split at h
  · cases h; exact Or.inr ⟨_, rfl⟩
  split at h
  · cases h
  · cases h; exact Or.inl rfl
  · cases h1 : readBlock data 0 with
    | error f => rw [h1] at h; cases h
    | ok block =>
      rw [h1] at h
      simp only [bind, Except.bind] at h
      split at h
      · cases h
      · cases h; exact Or.inr ⟨_, rfl⟩

end Release

namespace Encoder

theorem tidy_json {p p' : Encoder} {c : PairCall} {r : EncoderReply} (h : ∃ w, p.coder = .json w ∧ w.output.length ≤ 1)
    (hc : Release.pairCall p c = .ok (r, p')) : ∃ w, p'.coder = .json w ∧ w.output.length ≤ 1 := by
  obtain ⟨w, hw, hl⟩ := h
  cases c with
  | init =>
    simp only [Release.pairCall] at hc
    split at hc
    · cases hc
    · cases hc; exact ⟨w, hw, hl⟩
  | encoder c =>
    cases c with
    | start =>
      simp only [Release.pairCall, Release.start, hw, start] at hc
      cases hd : JsonWriter.isAscii p.engine.dictionary <;> simp [hd, Except.map] at hc
      · rw [← hc.2]; exact ⟨_, rfl, by simp [JsonWriter.init]⟩
      · rw [← hc.2]; exact ⟨_, rfl, by simp [JsonWriter.init]⟩
    | finish =>
      simp only [Release.pairCall, finish] at hc
      cases ha : p.allowed <;> simp [ha, hw] at hc
      · rw [← hc.2]; exact ⟨w, hw, hl⟩
      · rw [← hc.2]; exact ⟨w, rfl, hl⟩
    | chunk data =>
      simp only [Release.pairCall, Release.chunk, hw] at hc
      cases ha : p.allowed
      · simp [ha, Except.map] at hc
        rw [← hc.2]; exact ⟨w, hw, hl⟩
      cases hd : JsonWriter.isAscii data
      · simp [ha, hd, Except.map] at hc
        rw [← hc.2]; exact ⟨w, hw, hl⟩
      cases hen : Release.engineEncode p.engine p.lookForTargetMatches data with
      | error f => simp [ha, hd, hen, Except.map] at hc
      | ok calls =>
        simp [ha, hd, hen, Except.map] at hc
        rw [← hc.2]
        refine ⟨_, rfl, ?_⟩
        rcases Release.engineEncode_ends hen with rfl | ⟨pre, rfl⟩
        · exact hl
        · rw [JsonWriter.calls_append]
          simp [JsonWriter.calls, JsonWriter.call, JsonWriter.flush]

theorem tidy_binary {dict : Bytes} {flags : Nat} {matching : Bool} {m : InstructionMap}
    (u : Writer.Usable defaultCoding 8 m) {engine : Engine} (he : Engine.init dict = .ok (some engine)) {p p' : Encoder} {c : PairCall}
    {r : EncoderReply} (h : ∃ inited, Inv (Encoder.new (engineWhen dict engine inited) flags matching) m p)
    (hs : EachPairChunk (Small dict) [c]) (hc : Release.pairCall p c = .ok (r, p')) :
    ∃ inited, Inv (Encoder.new (engineWhen dict engine inited) flags matching) m p' := by
  obtain ⟨i1, i2, i3⟩ := Engine.initCall_first he
  obtain ⟨inited, h⟩ := h
  have got : ∀ {r' : EncoderReply} {q : Encoder} (i : Bool), Release.pairCall p c = .ok (r', q) →
      Inv (Encoder.new (engineWhen dict engine i) flags matching) m q →
      ∃ inited, Inv (Encoder.new (engineWhen dict engine inited) flags matching) m p' := by
    intro r' q i hq hi
    rw [hc] at hq
    cases hq
    exact ⟨i, hi⟩
  cases c with
  | init =>
    have hen : p.engine = engineWhen dict engine inited := h.engine
    cases inited with
    | true =>
      refine got true (r' := ⟨false, []⟩) (q := p) ?_ h
      simp only [Release.pairCall, hen, engineWhen, if_true, Release.init_again i2]
      rw [show engine = p.engine by rw [hen]; rfl]
    | false =>
      refine got true (r' := ⟨true, []⟩) (q := { p with engine }) ?_
        (h.inited (engine := engine) (by simp [Encoder.new, engineWhen, i3]))
      simp only [Release.pairCall, hen, engineWhen, Bool.false_eq_true, if_false, Release.init_first he]
  | encoder c =>
    cases c with
    | start =>
      obtain ⟨e1, k1, k2, _⟩ := start_ok u h
      exact got inited (Release.call_ok k1) k2
    | finish =>
      obtain ⟨e1, k1, k2, _⟩ := finish_ok h
      exact got inited (Release.call_ok k1) k2
    | chunk data =>
      cases ha : p.allowed with
      | false => exact got inited (Release.call_ok (chunk_refused ha data)) h
      | true =>
        cases inited with
        | true =>
          obtain ⟨e1, k1, k2, _⟩ := chunk_ok u (e0 := Encoder.new engine flags matching) he i3 h ha
            (hs data (List.mem_cons_self ..))
          exact got true (Release.call_ok k1) k2
        | false =>
          have hen : p.engine = ⟨dict, none⟩ := h.engine
          obtain ⟨h1, h2, h3, w, h4, h5, h6, h7⟩ := h
          have hr := h7.resolve_left (fun h => by rw [ha] at h; cases h.2)
          obtain ⟨j1, j2⟩ := chunkWriter_ready hr h5 h6 data
          have hf : p.flags = flags := h2
          have j : (if p.flags &&& 2 ≠ 0 then w.addChecksum (computeAdler32 data) else w) =
              chunkWriter (Encoder.new (engineWhen dict engine false) flags matching) m data := by rw [hf]; exact j1
          refine got false (r' := ⟨true, []⟩)
            (q := { p with coder := .binary (chunkWriter (Encoder.new (engineWhen dict engine false) flags matching) m data) }) ?_
            ⟨h1, h2, h3, _, rfl, rfl, fun h0 => by simp [chunkWriter, h0], Or.inr j2⟩
          simp only [Release.pairCall, Release.chunk, ha, h4, Release.engineEncode, hen, Release.writerCalls, Except.map, j,
            Bool.not_true, Bool.false_eq_true, if_false]

theorem Inv.buffers {e0 e : Encoder} {m : InstructionMap} (h : Inv e0 m e) : bufferBytes e.coder = 0 := by
  obtain ⟨_, _, _, w, h4, _, _, h7⟩ := h
  rw [h4]
  rcases h7 with ⟨rfl, _⟩ | h7
  · rfl
  · rw [h7.eq]; rfl

end Encoder

/-! ## All that is stored -/

theorem sum_map_add {α : Type} (f g : α → Nat) (l : List α) : (l.map fun a => f a + g a).sum = (l.map f).sum + (l.map g).sum := by
  induction l with
  | nil => rfl
  | cons a l ih => simp only [List.map_cons, List.sum_cons, ih]; omega

theorem sumTo_mono {f g : Nat → Nat} : ∀ {n : Nat}, (∀ i, i < n → f i ≤ g i) → sumTo f n ≤ sumTo g n
  | 0, _ => Nat.le_refl _
  | n + 1, h => Nat.add_le_add (sumTo_mono fun i hi => h i (Nat.lt_succ_of_lt hi)) (h n (Nat.lt_succ_self n))

theorem count_eq (l : List (Option Nat)) : (l.filter (·.isSome)).length = bytesOf (fun _ => 1) l := by
  unfold bytesOf
  induction l with
  | nil => rfl
  | cons a l ih => cases a <;> simp [ih]; omega

namespace Ownership

theorem Inv.stored_le {w : World} {D : List Dict} {E : List Enc} (h : Inv w D E) {ops : List Op}
    (hD : dictionariesOf ops = D.map (·.engine.dictionary))
    (hh : ∀ (d : Nat) (x : Dict) (bh : BlockHash), D[d]? = some x → x.engine.hashed = some bh →
      2 * tableBytes bh ≤ 5 * x.engine.dictionary.length + 8)
    (hb : ∀ (e : Nat) (y : Enc), E[e]? = some y → bufferBytes y.enc.coder ≤ 1) :
    stored w ≤ ((existing ops w).map fun c => c.length + (5 * c.length / 2 + 4)).sum + (w.encoders.filter (·.isSome)).length := by
  have hlen : w.dictionaries.length = (dictionariesOf ops).length := by rw [h.dicts.handles, hD, List.length_map]
  have hlen' : w.engines.length = (dictionariesOf ops).length := by rw [h.dicts.enginesLen, hD, List.length_map]
  have dict : ∀ {d : Nat} {o : EngineObject}, w.engines[d]? = some (some o) → ∃ x, D[d]? = some x ∧
      HasDict w.arrays w.hashes o x.engine ∧ w.dictionaries[d]? = some (some d) ∧ (dictionariesOf ops)[d]? = some x.engine.dictionary := by
    intro d o ho
    obtain ⟨x, k1, k2, k3⟩ := h.dicts.of_engine ho
    exact ⟨x, k1, k3, (h.dicts.live d x k1 k2).1, by rw [hD, List.getElem?_map, k1]; rfl⟩
  have h1 : bytesOf List.length w.arrays ≤ ((existing ops w).map fun c => c.length).sum := by
    rw [bytesOf_eq, existing_eq _ _ _ hlen]
    refine sumTo_le (own := fun i d => ∃ o, w.engines[d]? = some (some o) ∧ o.dictionary = .array i) ?_ _ _ _ _ ?_
    · rintro i i' d ⟨o, a1, a2⟩ ⟨o', b1, b2⟩
      rw [a1] at b1
      cases b1
      rw [a2] at b2
      cases b2; rfl
    · intro i _ hne
      cases hi : w.arrays[i]? with
      | none => simp [hi] at hne
      | some a =>
        cases a with
        | none => simp [hi] at hne
        | some b =>
          obtain ⟨d, o, k1, k2⟩ := h.dicts.arraysOwned i b hi
          obtain ⟨x, j1, j2, j3, j4⟩ := dict k1
          refine ⟨d, by rw [← hlen']; exact lt_of_getElem? k1, ⟨o, k1, k2⟩, ?_⟩
          have ht := j2.text
          rw [k2] at ht
          have hbx := ht.2
          rw [hi] at hbx
          cases hbx
          simp [j3, j4]
  have h2 : bytesOf (fun h : HashObject => tableBytes h.tables) w.hashes ≤ ((existing ops w).map fun c => 5 * c.length / 2 + 4).sum := by
    rw [bytesOf_eq, existing_eq _ _ _ hlen]
    refine sumTo_le (own := fun j d => ∃ o, w.engines[d]? = some (some o) ∧ o.hashed = some j) ?_ _ _ _ _ ?_
    · rintro i i' d ⟨o, a1, a2⟩ ⟨o', b1, b2⟩
      rw [a1] at b1
      cases b1
      rw [a2] at b2
      cases b2; rfl
    · intro j _ hne
      cases hj : w.hashes[j]? with
      | none => simp [hj] at hne
      | some a =>
        cases a with
        | none => simp [hj] at hne
        | some b =>
          obtain ⟨d, o, k1, k2⟩ := h.dicts.hashesOwned j b hj
          obtain ⟨x, j1, j2, j3, j4⟩ := dict k1
          refine ⟨d, by rw [← hlen']; exact lt_of_getElem? k1, ⟨o, k1, k2⟩, ?_⟩
          have ht := j2.hash
          rw [k2] at ht
          cases hx : x.engine.hashed with
          | none => rw [hx] at ht; exact ht.elim
          | some bh =>
            rw [hx] at ht
            have hbx := ht.2
            rw [hj] at hbx
            cases hbx
            have := hh d x bh j1 hx
            simp only [j3, j4, Option.map_some, Option.getD_some]
            have e : tableBytes { bh with source := [] } = tableBytes bh := rfl
            rw [e]
            omega
  have h3 : bytesOf bufferBytes w.writers ≤ (w.encoders.filter (·.isSome)).length := by
    rw [count_eq, bytesOf_eq, bytesOf_eq, h.encs.writersLen, h.encs.handles]
    apply sumTo_mono
    intro e he
    have hy : E[e]? = some E[e] := List.getElem?_eq_getElem he
    cases hl : E[e].live with
    | true =>
      obtain ⟨k1, _, k3⟩ := h.encs.live e _ hy hl
      rw [k1, k3]
      exact hb e _ hy
    | false =>
      obtain ⟨k1, _, k3⟩ := h.encs.gone e _ hy hl
      rw [k1, k3]
      exact Nat.le_refl _
  have := sum_map_add (fun c : Bytes => c.length) (fun c => 5 * c.length / 2 + 4) (existing ops w)
  unfold stored
  omega

end Ownership

/-! ## While a chunk is encoded -/

namespace Writer

/-- What is in the strings of a writer. -/
def inStrings (w : Writer) : Nat := w.data.length + w.inst.length + w.addr.length

theorem encodeInstruction_inStrings {w w' : Writer} {inst : UInt8} {size mode : Nat} (h : w.encodeInstruction inst size mode = .ok w') :
    w.inStrings ≤ w'.inStrings := by
  unfold encodeInstruction at h
  split at h
  · cases h
  split at h
  · cases h
  · rename_i i op explicit _
    cases hs : sizeOperand explicit size with
    | error f => rw [hs] at h; cases h
    | ok bs => rw [hs] at h; cases h; simp only [inStrings, List.length_append, List.length_set]; omega
  · split at h
    · cases h
    · rename_i op explicit _
      cases hs : sizeOperand explicit size with
      | error f => rw [hs] at h; cases h
      | ok bs => rw [hs] at h; cases h; simp only [inStrings, List.length_append]; omega

theorem appendData_inStrings (w : Writer) (bytes : Bytes) (n : Nat) : w.inStrings ≤ ((w.appendData bytes).advance n).inStrings := by
  unfold appendData; split <;> simp only [inStrings, advance, List.length_append] <;> omega

theorem appendAddr_inStrings (w : Writer) (bytes : Bytes) (n : Nat) : w.inStrings ≤ ((w.appendAddr bytes).advance n).inStrings := by
  unfold appendAddr; split <;> simp only [inStrings, advance, List.length_append] <;> omega

theorem call_inStrings {w w' : Writer} {c : CoderCall} {out : Bytes} (hc : c ≠ .output) (h : w.call c = .ok (out, w')) :
    w.inStrings ≤ w'.inStrings := by
  cases c with
  | output => exact absurd rfl hc
  | add bytes =>
    simp only [call, add] at h
    cases he : w.encodeInstruction vcdAdd bytes.length 0 with
    | error f => rw [he] at h; cases h
    | ok w1 =>
      rw [he] at h
      cases h
      exact Nat.le_trans (encodeInstruction_inStrings he) (appendData_inStrings _ _ _)
  | run size byte =>
    simp only [call, run] at h
    cases he : w.encodeInstruction vcdRun size 0 with
    | error f => rw [he] at h; cases h
    | ok w1 =>
      rw [he] at h
      cases h
      exact Nat.le_trans (encodeInstruction_inStrings he) (appendData_inStrings _ _ _)
  | copy offset size =>
    simp only [call, copy] at h
    split at h
    · cases h
    split at h
    · cases h
    rename_i mode encoded cache _
    cases he : ({ w with cache } : Writer).encodeInstruction vcdCopy size mode with
    | error f => rw [he] at h; cases h
    | ok w1 =>
      rw [he] at h
      simp only at h
      split at h
      · cases h
      · cases h
        exact Nat.le_trans (encodeInstruction_inStrings (w := { w with cache }) he) (appendAddr_inStrings _ _ _)

theorem calls_inStrings : ∀ (cs : List CoderCall) {w w' : Writer} {out : Bytes}, CoderCall.output ∉ cs → w.calls cs = .ok (out, w') →
    w.inStrings ≤ w'.inStrings ∧ out = []
  | [], _, _, _, _, h => by cases h; exact ⟨Nat.le_refl _, rfl⟩
  | c :: cs, w, w', out, hn, h => by
    have hc : c ≠ .output := fun e => hn (by rw [e]; exact List.mem_cons_self ..)
    simp only [calls] at h
    cases h1 : w.call c with
    | error f => rw [h1] at h; cases h
    | ok p =>
      obtain ⟨o1, w1⟩ := p
      rw [h1] at h
      simp only at h
      cases h2 : w1.calls cs with
      | error f => rw [h2] at h; cases h
      | ok p =>
        obtain ⟨o2, w2⟩ := p
        rw [h2] at h
        cases h
        obtain ⟨k1, k2⟩ := calls_inStrings cs (fun e => hn (List.mem_cons_of_mem _ e)) h2
        have ho : o1 = [] := by
          cases c with
          | output => exact absurd rfl hc
          | _ =>
            simp only [call] at h1
            revert h1
            simp only [Except.map]
            split <;> intro h1 <;> cases h1 <;> rfl
        exact ⟨Nat.le_trans (call_inStrings hc h1) k1, by rw [ho, k2]; rfl⟩

theorem calls_split : ∀ (a b : List CoderCall) {w w' : Writer} {out : Bytes}, w.calls (a ++ b) = .ok (out, w') →
    ∃ o1 w1 o2, w.calls a = .ok (o1, w1) ∧ w1.calls b = .ok (o2, w') ∧ out = o1 ++ o2
  | [], b, w, w', out, h => ⟨[], w, out, rfl, h, rfl⟩
  | c :: a, b, w, w', out, h => by
    simp only [List.cons_append, calls] at h
    cases h1 : w.call c with
    | error f => rw [h1] at h; cases h
    | ok p =>
      obtain ⟨o, w1⟩ := p
      rw [h1] at h
      simp only at h
      cases h2 : w1.calls (a ++ b) with
      | error f => rw [h2] at h; cases h
      | ok p =>
        obtain ⟨o2, w2⟩ := p
        rw [h2] at h
        cases h
        obtain ⟨oa, wa, ob, k1, k2, k3⟩ := calls_split a b h2
        refine ⟨o ++ oa, wa, ob, ?_, k2, by rw [k3, List.append_assoc]⟩
        simp only [calls, h1, k1, Except.map]

theorem deltaBytes_inStrings {w : Writer} {out : Bytes} (h : w.deltaBytes = .ok out) : w.inStrings ≤ out.length := by
  unfold deltaBytes at h
  simp only [bind, Except.bind] at h
  repeat' split at h
  all_goals first
    | (cases h; simp only [inStrings, List.length_append]; omega)
    | cases h

theorem output_inStrings {w w' : Writer} {out : Bytes} (h : w.output = .ok (out, w')) (hne : out ≠ []) : w.inStrings ≤ out.length := by
  unfold output at h
  by_cases hi : w.inst = []
  · rw [if_pos hi] at h
    simp only at h
    split at h
    · cases h
    · cases h
    · cases h; exact absurd rfl hne
  · rw [if_neg hi] at h
    cases hw : w.windowBytes with
    | error f => rw [hw] at h; cases h
    | ok o =>
      rw [hw] at h
      simp only at h
      have ho : out = o := by
        split at h
        · cases h
        · cases h
        · cases h; rfl
      subst ho
      unfold windowBytes at hw
      simp only [bind, Except.bind] at hw
      repeat' split at hw
      all_goals first
        | cases hw; done
        | (rename_i delta hd _ _
           have := deltaBytes_inStrings hd
           cases hw
           simp only [List.length_append]
           omega)

end Writer

end Vcd
