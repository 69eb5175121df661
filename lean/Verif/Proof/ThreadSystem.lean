import Verif.Proof.ThreadEncoder

/-! # Threads that share memory -/

namespace Vcd.Threads
open Spec

/-- The object at `p` is finished, and nobody changes it. -/
def Published (M : InstructionMap) (m : Memory) (Ls : List Local) (g : Global) (p : Nat) : Prop :=
  m.heap[p]? = some (final M g) ∧ ∀ L ∈ Ls, ∀ o, L.own ≠ some (p, o)

/-- A thread's view of the memory is right. -/
structure Valid (M : InstructionMap) (m : Memory) (Ls : List Local) (L : Local) : Prop where
  known : ∀ g p, (g, p) ∈ L.known → Published M m Ls g p ∧ m.get g ≠ none
  own : ∀ p o, L.own = some (p, o) → m.heap[p]? = some o
  nodup : L.spent.Nodup
  spent : ∀ g ∈ L.spent, L.Set g ∨ ∃ p o, L.own = some (p, o) ∧ o.kind = g

/-- The memory and what the threads may rely on fit together. -/
structure World (M : InstructionMap) (m : Memory) (Ls : List Local) : Prop where
  valid : ∀ L ∈ Ls, Valid M m Ls L
  globals : ∀ g p, m.get g = some p → Published M m Ls g p
  disjoint : Ls.Pairwise fun L L' => ∀ p o o', L.own = some (p, o) → L'.own ≠ some (p, o')
  size : m.heap.length ≤ (Ls.map fun L => L.spent.length).sum

theorem Memory.get_put (m : Memory) (g g' : Global) (p : Nat) :
    (m.put g p).get g' = if g' = g then some p else m.get g' := by
  cases g <;> cases g' <;> rfl

theorem Memory.heap_put (m : Memory) (g : Global) (p : Nat) : (m.put g p).heap = m.heap := by cases g <;> rfl

theorem sum_set {Ls : List Local} {i : Nat} {L L' : Local} (hi : Ls[i]? = some L) (f : Local → Nat) :
    ((Ls.set i L').map f).sum + f L = (Ls.map f).sum + f L' := by
  induction Ls generalizing i with
  | nil => simp at hi
  | cons K Ks ih =>
    cases i with
    | zero =>
      simp only [List.getElem?_cons_zero, Option.some.injEq] at hi
      subst hi
      simp only [List.set_cons_zero, List.map_cons, List.sum_cons]
      omega
    | succ i =>
      simp only [List.getElem?_cons_succ] at hi
      have := ih hi
      simp only [List.set_cons_succ, List.map_cons, List.sum_cons]
      omega

theorem mem_set' {Ls : List Local} {i : Nat} {L' K : Local} (hK : K ∈ Ls.set i L') :
    K = L' ∨ ∃ j, j ≠ i ∧ Ls[j]? = some K := by
  obtain ⟨j, hj⟩ := List.mem_iff_getElem?.1 hK
  rw [List.getElem?_set] at hj
  by_cases h : i = j
  · rw [if_pos h] at hj
    split at hj
    · exact Or.inl (by simpa using hj.symm)
    · cases hj
  · rw [if_neg h] at hj
    exact Or.inr ⟨j, fun e => h e.symm, hj⟩

theorem World.other {M : InstructionMap} {m : Memory} {Ls : List Local} (w : World M m Ls) {i j : Nat} {L K : Local}
    (hi : Ls[i]? = some L) (hj : Ls[j]? = some K) (hne : j ≠ i) {p : Nat} {o : Obj} (ho : L.own = some (p, o)) (o' : Obj) :
    K.own ≠ some (p, o') := by
  obtain ⟨li, rfl⟩ := List.getElem?_eq_some_iff.1 hi
  obtain ⟨lj, rfl⟩ := List.getElem?_eq_some_iff.1 hj
  rcases Nat.lt_or_ge i j with h | h
  · exact (List.pairwise_iff_getElem.1 w.disjoint i j li lj h) p o o' ho
  · intro hk
    exact (List.pairwise_iff_getElem.1 w.disjoint j i lj li (by omega)) p o' o hk ho

/-- A thread changes the memory and what it relies on. -/
theorem World.update {M : InstructionMap} {m m' : Memory} {Ls : List Local} (w : World M m Ls) {i : Nat} {L L' : Local}
    (hi : Ls[i]? = some L)
    -- the others' objects are left alone
    (hheap : ∀ p o, m.heap[p]? = some o → (∀ o', L.own ≠ some (p, o')) → m'.heap[p]? = some o)
    (hget : ∀ g, m.get g ≠ none → m'.get g ≠ none)
    -- what the thread owns, it owned before, or it is new
    (hown : ∀ p o, L'.own = some (p, o) → m'.heap[p]? = some o ∧ ((∃ o', L.own = some (p, o')) ∨ m.heap[p]? = none))
    (hknown : ∀ g p, (g, p) ∈ L'.known → (g, p) ∈ L.known ∨
      (m'.heap[p]? = some (final M g) ∧ (∀ o, L'.own ≠ some (p, o)) ∧  (∀ j K, j ≠ i → Ls[j]? = some K → ∀ o, K.own ≠ some (p, o)) ∧ m'.get g ≠ none))
    (hglob : ∀ g p, m'.get g = some p → m.get g = some p ∨ (g, p) ∈ L'.known)
    (hnodup : L'.spent.Nodup) (hspent : ∀ g ∈ L'.spent, L'.Set g ∨ ∃ p o, L'.own = some (p, o) ∧ o.kind = g)
    (hsize : m'.heap.length + L.spent.length ≤ m.heap.length + L'.spent.length) :
    World M m' (Ls.set i L') := by
  have hL : L ∈ Ls := List.mem_of_getElem? hi
  -- published objects stay published
  have pub : ∀ g p, Published M m Ls g p → Published M m' (Ls.set i L') g p := by
    intro g p ⟨h1, h2⟩
    refine ⟨hheap p _ h1 (h2 L hL), fun K hK o ho => ?_⟩
    rcases mem_set' hK with rfl | ⟨j, _, hj⟩
    · rcases (hown p o ho).2 with ⟨o', ho'⟩ | hn
      · exact h2 L hL o' ho'
      · rw [h1] at hn; cases hn
    · exact h2 K (List.mem_of_getElem? hj) o ho
  have newpub : ∀ g p, (g, p) ∈ L'.known → Published M m' (Ls.set i L') g p ∧ m'.get g ≠ none := by
    intro g p hp
    rcases hknown g p hp with h | ⟨h1, h2, h3, h4⟩
    · have := (w.valid L hL).known g p h
      exact ⟨pub g p this.1, hget g this.2⟩
    · refine ⟨⟨h1, fun K hK o ho => ?_⟩, h4⟩
      rcases mem_set' hK with rfl | ⟨j, hj, hj'⟩
      · exact h2 o ho
      · exact h3 j K hj hj' o ho
  refine ⟨fun K hK => ?_, fun g p hg => ?_, ?_, ?_⟩
  · rcases mem_set' hK with rfl | ⟨j, hne, hj⟩
    · exact ⟨newpub, fun p o ho => (hown p o ho).1, hnodup, hspent⟩
    · have v := w.valid K (List.mem_of_getElem? hj)
      refine ⟨fun g p hp => ⟨pub g p (v.known g p hp).1, hget g (v.known g p hp).2⟩, fun p o ho => ?_, v.nodup, v.spent⟩
      refine hheap p o (v.own p o ho) fun o' ho' => ?_
      exact w.other hi hj hne ho' o ho
  · rcases hglob g p hg with h | h
    · exact pub g p (w.globals g p h)
    · exact (newpub g p h).1
  · rw [List.pairwise_iff_getElem]
    intro a b ha hb hab p o o' h1 h2
    rw [List.length_set] at ha hb
    rw [List.getElem_set] at h1 h2
    have key : ∀ j (lj : j < Ls.length), j ≠ i → ∀ o o', L'.own = some (p, o) → Ls[j].own = some (p, o') → False := by
      intro j lj hj o o' ho ho'
      rcases (hown p o ho).2 with ⟨o2, ho2⟩ | hn
      · exact w.other hi (List.getElem?_eq_getElem lj) hj ho2 o' ho'
      · have := (w.valid Ls[j] (List.getElem_mem lj)).own p o' ho'
        rw [hn] at this
        cases this
    by_cases ea : i = a
    · rw [if_pos ea] at h1
      rw [if_neg (by omega)] at h2
      exact key b hb (by omega) o o' h1 h2
    · rw [if_neg ea] at h1
      by_cases eb : i = b
      · rw [if_pos eb] at h2
        exact key a ha (by omega) o' o h2 h1
      · rw [if_neg eb] at h2
        exact (List.pairwise_iff_getElem.1 w.disjoint a b ha hb hab) p o o' h1 h2
  · have h1 := w.size
    have h2 := sum_set (L' := L') hi (fun L => L.spent.length)
    omega

/-- A step of a thread that does nothing wrong. -/
theorem World.step {M : InstructionMap} {m : Memory} {Ls : List Local} (w : World M m Ls) {i : Nat} {L : Local}
    (hi : Ls[i]? = some L) {α : Type} {P : Prog α} {Q : Local → α → Prop} (h : wp M P Q L) :
    ∃ rs m' P' L', P.step m = .ok (rs, m', P') ∧ L.expected = rs ++ L'.expected ∧ wp M P' Q L' ∧ World M m' (Ls.set i L') := by
  have hL : L ∈ Ls := List.mem_of_getElem? hi
  have v := w.valid L hL
  have same : Ls.set i L = Ls := by
    obtain ⟨li, rfl⟩ := List.getElem?_eq_some_iff.1 hi
    exact List.set_getElem_self li
  cases P with
  | ret a => exact ⟨_, _, _, L, rfl, rfl, h, by rw [same]; exact w⟩
  | fault f => exact h.elim
  | load g k =>
    cases hg : m.get g with
    | none =>
      refine ⟨_, _, _, L, rfl, rfl, ?_, by rw [same]; exact w⟩
      rw [hg]
      refine h.2 fun ⟨p, hp⟩ => (v.known g p hp).2 hg
    | some p =>
      refine ⟨_, _, _, { L with known := (g, p) :: L.known }, rfl, rfl, by rw [hg]; exact h.1 p, ?_⟩
      have hpub := w.globals g p hg
      refine w.update hi (fun _ _ h _ => h) (fun _ h => h) (fun p o ho => ⟨v.own p o ho, Or.inl ⟨o, ho⟩⟩) ?_
        (fun _ _ h => Or.inl h) v.nodup ?_ (by simp)
      · intro g' p' hp'
        rcases List.mem_cons.1 hp' with e | e
        · cases e
          exact Or.inr ⟨hpub.1, hpub.2 L hL, fun j K _ hj => hpub.2 K (List.mem_of_getElem? hj),
            by rw [hg]; simp⟩
        · exact Or.inl e
      · intro g' hg'
        rcases v.spent g' hg' with ⟨q, hq⟩ | h
        · exact Or.inl ⟨q, List.mem_cons_of_mem _ hq⟩
        · exact Or.inr h
  | set g p k =>
    obtain ⟨ho, hk⟩ := h
    refine ⟨_, _, _, { L with own := none, known := (g, p) :: L.known }, rfl, rfl, hk, ?_⟩
    have hp := v.own p _ ho
    refine w.update hi ?_ ?_ (by simp) ?_ ?_ v.nodup ?_ ?_
    · intro q o hq _
      rw [Memory.heap_put]; exact hq
    · intro g' hg'
      rw [Memory.get_put]
      split
      · simp
      · exact hg'
    · intro g' p' hp'
      rcases List.mem_cons.1 hp' with e | e
      · cases e
        refine Or.inr ⟨by rw [Memory.heap_put]; exact hp, by simp, fun j K hj hK o => w.other hi hK hj ho o,
          by rw [Memory.get_put, if_pos rfl]; simp⟩
      · exact Or.inl e
    · intro g' p' hg'
      rw [Memory.get_put] at hg'
      split at hg'
      · rename_i e
        cases hg'
        rw [e]
        exact Or.inr (List.mem_cons_self ..)
      · exact Or.inl hg'
    · intro g' hg'
      rcases v.spent g' hg' with ⟨q, hq⟩ | ⟨q, o, hq, hkind⟩
      · exact Or.inl ⟨q, List.mem_cons_of_mem _ hq⟩
      · rw [ho] at hq
        cases hq
        rw [final_kind] at hkind
        exact Or.inl ⟨p, by rw [← hkind]; exact List.mem_cons_self ..⟩
    · rw [Memory.heap_put]; exact Nat.le_refl _
  | alloc o k =>
    obtain ⟨ho, hset, hk⟩ := h
    refine ⟨_, _, _, { L with own := some (m.heap.length, o), spent := o.kind :: L.spent }, rfl, rfl, hk _, ?_⟩
    refine w.update hi ?_ (fun _ h => h) ?_ (fun g p hp => Or.inl hp) (fun _ _ h => Or.inl h) ?_ ?_ ?_
    · intro q o' hq _
      rw [List.getElem?_append_left (List.getElem?_eq_some_iff.1 hq).1]
      exact hq
    · intro q o' hq
      cases hq
      refine ⟨by simp, Or.inr (by simp)⟩
    · refine List.nodup_cons.2 ⟨fun hmem => ?_, v.nodup⟩
      rcases v.spent _ hmem with h | ⟨q, o', hq, _⟩
      · exact hset h
      · rw [ho] at hq; cases hq
    · intro g' hg'
      rcases List.mem_cons.1 hg' with e | e
      · exact Or.inr ⟨_, _, rfl, e.symm⟩
      · rcases v.spent g' e with h | ⟨q, o', hq, _⟩
        · exact Or.inl h
        · rw [ho] at hq; cases hq
    · simp; omega
  | modify p f k =>
    obtain ⟨o, o', ho, hf, hkind, hk⟩ := h
    have hp := v.own p o ho
    have hlt : p < m.heap.length := (List.getElem?_eq_some_iff.1 hp).1
    refine ⟨[], { m with heap := m.heap.set p o' }, k, { L with own := some (p, o') }, ?_, rfl, hk, ?_⟩
    · simp only [Prog.step, hp, hf, Except.map]
    · refine w.update hi ?_ (fun g h => by cases g <;> exact h) ?_ (fun g p hp => Or.inl hp)
        (fun g p h => Or.inl (by cases g <;> exact h)) v.nodup ?_ ?_
      · intro q o2 hq hne
        rw [List.getElem?_set]
        rw [if_neg (fun e => hne o (by rw [← e]; exact ho))]
        exact hq
      · intro q o2 hq
        cases hq
        refine ⟨by rw [List.getElem?_set, if_pos rfl, if_pos hlt], Or.inl ⟨o, ho⟩⟩
      · intro g' hg'
        rcases v.spent g' hg' with h | ⟨q, o2, hq, hk2⟩
        · exact Or.inl h
        · rw [ho] at hq
          cases hq
          exact Or.inr ⟨p, o', rfl, by rw [hkind]; exact hk2⟩
      · simp
  | read p k =>
    obtain ⟨g, hg, hk⟩ := h
    refine ⟨[], m, k (final M g), L, ?_, rfl, hk, by rw [same]; exact w⟩
    simp only [Prog.step, (v.known g p hg).1.1]
  | emit r k =>
    obtain ⟨rest, hx, hk⟩ := h
    refine ⟨[r], m, k, { L with expected := rest }, rfl, hx, hk, ?_⟩
    exact w.update hi (fun _ _ h _ => h) (fun _ h => h) (fun p o ho => ⟨v.own p o ho, Or.inl ⟨o, ho⟩⟩)
      (fun g p hp => Or.inl hp) (fun _ _ h => Or.inl h) v.nodup v.spent (Nat.le_refl _)

/-! ## Running alone -/

theorem Prog.run_step {α : Type} {P P' : Prog α} {m m' : Memory} {rs : List ThreadReply} (hP : ∀ a, P ≠ .ret a)
    (h : P.step m = .ok (rs, m', P')) : P.run m = (P'.run m').map fun (m, rs', a) => (m, rs ++ rs', a) := by
  have id : ∀ x : Except Fault (Memory × List ThreadReply × α), x.map (fun (m, rs', a) => (m, [] ++ rs', a)) = x := by
    intro x; cases x <;> rfl
  cases P with
  | ret a => exact absurd rfl (hP a)
  | fault f => cases h
  | load g k => cases h; rw [id]; rfl
  | set g p k => cases h; rw [id]; rfl
  | alloc o k => cases h; rw [id]; rfl
  | modify p f k =>
    simp only [Prog.step] at h
    simp only [Prog.run]
    cases hp : m.heap[p]? with
    | none => rw [hp] at h; cases h
    | some o =>
      simp only [hp] at h
      obtain ⟨o', h1, h2⟩ := Except.map_ok h
      cases h2
      rw [id]
      simp only [h1]
  | read p k =>
    simp only [Prog.step] at h
    simp only [Prog.run]
    cases hp : m.heap[p]? with
    | none => rw [hp] at h; cases h
    | some o =>
      simp only [hp] at h
      cases h
      rw [id]
  | emit r k => cases h; rfl

/-- One thread alone. -/
theorem World.run {M : InstructionMap} {α : Type} {Q : Local → α → Prop} (P : Prog α) :
    ∀ {m : Memory} {L : Local}, World M m [L] → wp M P Q L →
      ∃ m' rs a L', P.run m = .ok (m', rs, a) ∧ L.expected = rs ++ L'.expected ∧ Q L' a ∧ World M m' [L'] := by
  have next : ∀ {P : Prog α} {m : Memory} {L : Local}, (∀ a, P ≠ .ret a) → World M m [L] → wp M P Q L →
      (∀ rs m1 P1 L1, P.step m = .ok (rs, m1, P1) → World M m1 [L1] → wp M P1 Q L1 →
        ∃ m' rs a L', P1.run m1 = .ok (m', rs, a) ∧ L1.expected = rs ++ L'.expected ∧ Q L' a ∧ World M m' [L']) →
      ∃ m' rs a L', P.run m = .ok (m', rs, a) ∧ L.expected = rs ++ L'.expected ∧ Q L' a ∧ World M m' [L'] := by
    intro P m L hP w h ih
    obtain ⟨rs, m1, P1, L1, h1, h2, h3, h4⟩ := w.step (i := 0) rfl h
    obtain ⟨m', rs', a, L', k1, k2, k3, k4⟩ := ih rs m1 P1 L1 h1 h4 h3
    refine ⟨m', rs ++ rs', a, L', ?_, by rw [h2, k2, List.append_assoc], k3, k4⟩
    rw [Prog.run_step hP h1, k1]
    rfl
  induction P with
  | ret a => intro m L w h; exact ⟨m, [], a, L, rfl, rfl, h, w⟩
  | fault f => intro m L w h; exact h.elim
  | load g k ih =>
    intro m L w h
    refine next (by simp) w h fun rs m1 P1 L1 hs w1 h1 => ?_
    cases hs
    exact ih _ w1 h1
  | set g p k ih =>
    intro m L w h
    refine next (by simp) w h fun rs m1 P1 L1 hs w1 h1 => ?_
    cases hs
    exact ih w1 h1
  | alloc o k ih =>
    intro m L w h
    refine next (by simp) w h fun rs m1 P1 L1 hs w1 h1 => ?_
    cases hs
    exact ih _ w1 h1
  | modify p f k ih =>
    intro m L w h
    refine next (by simp) w h fun rs m1 P1 L1 hs w1 h1 => ?_
    simp only [Prog.step] at hs
    split at hs
    · cases hs
    · obtain ⟨o', _, h2⟩ := Except.map_ok hs
      cases h2
      exact ih w1 h1
  | read p k ih =>
    intro m L w h
    refine next (by simp) w h fun rs m1 P1 L1 hs w1 h1 => ?_
    simp only [Prog.step] at hs
    split at hs
    · cases hs
    · cases hs
      exact ih _ w1 h1
  | emit r k ih =>
    intro m L w h
    refine next (by simp) w h fun rs m1 P1 L1 hs w1 h1 => ?_
    cases hs
    exact ih w1 h1

/-! ## The system -/

/-- New threads know what the first one knows. -/
theorem World.spawn {M : InstructionMap} {m : Memory} {L : Local} (w : World M m [L]) (ho : L.own = none)
    (totals : List (List ThreadReply)) :
    World M m (L :: totals.map fun rs => { known := L.known, expected := rs }) := by
  have pub : ∀ g p, Published M m [L] g p →
      Published M m (L :: totals.map fun rs => { known := L.known, expected := rs }) g p := by
    intro g p h
    refine ⟨h.1, fun K hK o => ?_⟩
    rcases List.mem_cons.1 hK with rfl | hK
    · rw [ho]; simp
    · obtain ⟨rs, _, rfl⟩ := List.mem_map.1 hK
      simp
  have v := w.valid L (List.mem_singleton.2 rfl)
  refine ⟨fun K hK => ?_, fun g p hg => pub g p (w.globals g p hg), ?_, ?_⟩
  · rcases List.mem_cons.1 hK with rfl | hK
    · exact ⟨fun g p hp => ⟨pub g p (v.known g p hp).1, (v.known g p hp).2⟩, v.own, v.nodup, v.spent⟩
    · obtain ⟨rs, _, rfl⟩ := List.mem_map.1 hK
      exact ⟨fun g p hp => ⟨pub g p (v.known g p hp).1, (v.known g p hp).2⟩, by simp, by simp, by simp⟩
  · refine List.pairwise_cons.2 ⟨fun K _ p o o' h => (by rw [ho] at h; cases h), ?_⟩
    rw [List.pairwise_map]
    exact List.pairwise_of_forall fun _ _ p o o' h => by cases h
  · have := w.size
    simp only [List.map_cons, List.map_nil, List.sum_cons, List.sum_nil] at this ⊢
    omega

/-- All threads do nothing wrong, and are on their way to their replies. The first element of `Ls` belongs to
the thread that was alone at the beginning. -/
structure SInv (M : InstructionMap) (s : System) (Ls : List Local) (totals : List (List ThreadReply)) : Prop where
  world : World M s.memory Ls
  count : s.threads.length = totals.length
  locals : Ls.length = totals.length + 1
  each : ∀ i t L rs, s.threads[i]? = some t → Ls[i + 1]? = some L → totals[i]? = some rs →
    t.replies ++ L.expected = rs ∧ wp M t.todo (fun L _ => L.expected = []) L

theorem SInv.step {M : InstructionMap} {s : System} {Ls : List Local} {totals : List (List ThreadReply)}
    (h : SInv M s Ls totals) (i : Nat) : ∃ s' Ls', s.step i = .ok s' ∧ SInv M s' Ls' totals := by
  rw [System.step]
  cases ht : s.threads[i]? with
  | none => exact ⟨s, Ls, rfl, h⟩
  | some t =>
    have li : i < s.threads.length := (List.getElem?_eq_some_iff.1 ht).1
    have hc := h.count
    have hl := h.locals
    obtain ⟨L, hL⟩ : ∃ L, Ls[i + 1]? = some L := ⟨_, List.getElem?_eq_getElem (by omega)⟩
    obtain ⟨rs, hrs⟩ : ∃ rs, totals[i]? = some rs := ⟨_, List.getElem?_eq_getElem (by omega)⟩
    obtain ⟨h1, h2⟩ := h.each i t L rs ht hL hrs
    obtain ⟨out, m', P', L', k1, k2, k3, k4⟩ := h.world.step hL h2
    dsimp only
    rw [k1]
    refine ⟨_, Ls.set (i + 1) L', rfl, k4, by simp [hc], by simp [hl], ?_⟩
    intro j t' K rs' ht' hK hrs'
    dsimp only at ht'
    rw [List.getElem?_set] at ht' hK
    by_cases e : i = j
    · subst e
      rw [if_pos rfl, if_pos li] at ht'
      rw [if_pos rfl, if_pos (by omega)] at hK
      cases ht'
      cases hK
      rw [hrs] at hrs'
      cases hrs'
      refine ⟨?_, k3⟩
      rw [List.append_assoc, ← k2, h1]
    · rw [if_neg e] at ht'
      rw [if_neg (by omega)] at hK
      exact h.each j t' K rs' ht' hK hrs'

theorem SInv.run {M : InstructionMap} {totals : List (List ThreadReply)} (sched : List Nat) :
    ∀ {s : System} {Ls : List Local}, SInv M s Ls totals → ∃ s' Ls', s.run sched = .ok s' ∧ SInv M s' Ls' totals := by
  induction sched with
  | nil => intro s Ls h; exact ⟨s, Ls, rfl, h⟩
  | cons i sched ih =>
    intro s Ls h
    obtain ⟨s1, L1, h1, h2⟩ := h.step i
    rw [System.run, h1]
    exact ih h2

theorem SInv.thread {M : InstructionMap} {s : System} {Ls : List Local} {totals : List (List ThreadReply)}
    (h : SInv M s Ls totals) {i : Nat} {t : Thread} {rs : List ThreadReply} (ht : s.threads[i]? = some t)
    (hrs : totals[i]? = some rs) : t.replies <+: rs ∧ (t.Finished → t.replies = rs) := by
  have li : i < s.threads.length := (List.getElem?_eq_some_iff.1 ht).1
  have hc := h.count
  have hl := h.locals
  obtain ⟨L, hL⟩ : ∃ L, Ls[i + 1]? = some L := ⟨_, List.getElem?_eq_getElem (by omega)⟩
  obtain ⟨h1, h2⟩ := h.each i t L rs ht hL hrs
  refine ⟨⟨L.expected, h1⟩, ?_⟩
  rintro ⟨a, ha⟩
  rw [ha] at h2
  have h2 : L.expected = [] := h2
  rw [h2, List.append_nil] at h1
  exact h1

theorem nodup_globals {l : List Global} (h : l.Nodup) : l.length ≤ 2 := by
  match l, h with
  | [], _ => simp
  | [_], _ => simp
  | [_, _], _ => simp
  | a :: b :: c :: l, h =>
    exfalso
    simp only [List.nodup_cons, List.mem_cons, not_or] at h
    cases a <;> cases b <;> cases c <;> simp_all

theorem SInv.size {M : InstructionMap} {s : System} {Ls : List Local} {totals : List (List ThreadReply)}
    (h : SInv M s Ls totals) : s.memory.heap.length ≤ 2 * (totals.length + 1) := by
  have h1 := h.world.size
  have h2 : (Ls.map fun L => L.spent.length).sum ≤ 2 * Ls.length := by
    have hall : ∀ L ∈ Ls, L.spent.length ≤ 2 := fun L hL => nodup_globals (h.world.valid L hL).nodup
    generalize Ls = l at hall
    induction l with
    | nil => simp
    | cons L l ih =>
      have := ih fun K hK => hall K (List.mem_cons_of_mem _ hK)
      have := hall L (List.mem_cons_self ..)
      simp only [List.map_cons, List.sum_cons, List.length_cons]
      omega
  have := h.locals
  omega

/-- The beginning. -/
theorem launch_inv {M : InstructionMap} (hM : defaultMap = some M) {setup : List Command} {programs : List (List Command)}
    {rs0 : List ThreadReply} {s0 : Own} {totals : List (List ThreadReply)}
    (h0 : Own.commands {} setup = .ok (rs0, s0)) (hlen : totals.length = programs.length)
    (h : ∀ (i : Nat) cs rs, programs[i]? = some cs → totals[i]? = some rs → alone s0.engine cs = .ok rs) :
    ∃ s Ls, launch setup programs = .ok s ∧ SInv M s Ls totals := by
  have hw : World M {} [{ expected := rs0 }] := by
    refine ⟨fun L hL => ?_, fun g p hg => ?_, by simp, by simp⟩
    · cases List.mem_singleton.1 hL
      exact ⟨by simp, by simp, by simp, by simp⟩
    · cases g <;> cases hg
  obtain ⟨m, rs, a, L, h1, h2, ⟨h3, h4, h5, h6⟩, h7⟩ := hw.run (commands {} setup)
    (commands_wp hM setup (rest := []) (s := {}) rfl ⟨by simp, by simp⟩ (by simp) h0)
  refine ⟨⟨m, programs.map fun cs => { todo := commands { engine := a.engine } cs }⟩, _, by rw [launch, h1], h7.spawn h3 totals,
    by simp [hlen], by simp, ?_⟩
  intro i t K rs ht hK hrs
  rw [List.getElem?_map] at ht
  rw [List.getElem?_cons_succ, List.getElem?_map, hrs] at hK
  cases hK
  cases hcs : programs[i]? with
  | none => rw [hcs] at ht; cases ht
  | some cs =>
    rw [hcs] at ht
    cases ht
    refine ⟨rfl, ?_⟩
    obtain ⟨⟨rs', s'⟩, k1, k2⟩ := Except.map_ok (h i cs rs hcs hrs)
    cases k2
    have he : s0.engine = a.engine := by rw [← h5]; rfl
    rw [he] at k1
    exact wp_mono (commands_wp hM cs (s := { engine := a.engine }) (rest := []) rfl ⟨fun hn => h6.engine hn, by simp⟩
      (by simp) k1) fun L' t hq => hq.2.1

/-! ## Termination -/

/-- The state after `n` steps of an endless schedule. -/
def System.after (s : System) (sched : Nat → Nat) (n : Nat) : Except Fault System := s.run ((List.range n).map sched)

theorem System.run_append (a b : List Nat) (s : System) :
    s.run (a ++ b) = match s.run a with | .error f => .error f | .ok s => s.run b := by
  induction a generalizing s with
  | nil => rfl
  | cons i a ih =>
    rw [List.cons_append, System.run, System.run]
    cases s.step i with
    | error f => rfl
    | ok s => exact ih s

theorem System.after_succ (s s' : System) (sched : Nat → Nat) (n : Nat) (h : s.after sched n = .ok s') :
    s.after sched (n + 1) = s'.step (sched n) := by
  rw [System.after] at h ⊢
  rw [List.range_succ, List.map_append, System.run_append, h]
  simp only [List.map_cons, List.map_nil, System.run]
  cases s'.step (sched n) <;> rfl

theorem System.step_other {s s' : System} {i j : Nat} (h : s.step i = .ok s') (hne : j ≠ i) :
    s'.threads[j]? = s.threads[j]? := by
  rw [System.step] at h
  split at h
  · cases h; rfl
  · split at h
    · cases h
    · cases h
      exact List.getElem?_set_ne (Ne.symm hne)

theorem System.step_self {s s' : System} {i : Nat} {t : Thread} (h : s.step i = .ok s') (ht : s.threads[i]? = some t) :
    ∃ rs m P, t.todo.step s.memory = .ok (rs, m, P) ∧ s'.threads[i]? = some ⟨P, t.replies ++ rs⟩ := by
  rw [System.step, ht] at h
  dsimp only at h
  split at h
  · cases h
  · rename_i rs m P hs
    cases h
    refine ⟨rs, m, P, hs, ?_⟩
    rw [List.getElem?_set, if_pos rfl, if_pos (List.getElem?_eq_some_iff.1 ht).1]

/-- A thread that gets infinitely many steps comes to its end, whatever the others do. -/
theorem finishes {s : System} {sched : Nat → Nat} (hok : ∀ n, ∃ s', s.after sched n = .ok s') {i : Nat}
    (hfair : ∀ n, ∃ m, n ≤ m ∧ sched m = i) (P : Prog Objects) :
    ∀ n s' t, s.after sched n = .ok s' → s'.threads[i]? = some t → t.todo = P →
      ∃ n' s'' t', s.after sched n' = .ok s'' ∧ s''.threads[i]? = some t' ∧ t'.Finished := by
  -- until the next step of thread `i`, it does not change
  have wait : ∀ k n s' t, sched (n + k) = i → s.after sched n = .ok s' → s'.threads[i]? = some t →
      ∃ m s2, n ≤ m ∧ s.after sched m = .ok s2 ∧ s2.threads[i]? = some t ∧ sched m = i := by
    intro k
    induction k with
    | zero => intro n s' t hk hs ht; exact ⟨n, s', Nat.le_refl _, hs, ht, hk⟩
    | succ k ih =>
      intro n s' t hk hs ht
      by_cases e : sched n = i
      · exact ⟨n, s', Nat.le_refl _, hs, ht, e⟩
      · obtain ⟨s2, hs2⟩ := hok (n + 1)
        have hstep := hs2
        rw [System.after_succ s s' sched n hs] at hstep
        obtain ⟨m, s3, h1, h2⟩ := ih (n + 1) s2 t (by rw [show n + 1 + k = n + (k + 1) by omega]; exact hk) hs2
          (by rw [System.step_other hstep (fun h => e h.symm)]; exact ht)
        exact ⟨m, s3, by omega, h2⟩
  have go : ∀ n s' t, s.after sched n = .ok s' → s'.threads[i]? = some t →
      ∃ m s3 rs m0 mem P, n ≤ m ∧ t.todo.step mem = .ok (rs, m0, P) ∧ s.after sched m = .ok s3 ∧
        s3.threads[i]? = some ⟨P, t.replies ++ rs⟩ := by
    intro n s' t hs ht
    obtain ⟨m, hm, hi⟩ := hfair n
    obtain ⟨m', s2, h1, h2, h3, h4⟩ := wait (m - n) n s' t (by rw [show n + (m - n) = m by omega]; exact hi) hs ht
    obtain ⟨s3, hs3⟩ := hok (m' + 1)
    have hstep := hs3
    rw [System.after_succ s s2 sched m' h2, h4] at hstep
    obtain ⟨rs, m0, P, k1, k2⟩ := System.step_self hstep h3
    exact ⟨m' + 1, s3, rs, m0, s2.memory, P, by omega, k1, hs3, k2⟩
  induction P with
  | ret a => intro n s' t hs ht hP; exact ⟨n, s', t, hs, ht, a, hP⟩
  | fault f =>
    intro n s' t hs ht hP
    obtain ⟨m, s3, rs, m0, mem, P', _, h1, _⟩ := go n s' t hs ht
    rw [hP] at h1
    cases h1
  | load g k ih =>
    intro n s' t hs ht hP
    obtain ⟨m, s3, rs, m0, mem, P', _, h1, h2, h3⟩ := go n s' t hs ht
    rw [hP] at h1
    cases h1
    exact ih _ m s3 _ h2 h3 rfl
  | set g p k ih =>
    intro n s' t hs ht hP
    obtain ⟨m, s3, rs, m0, mem, P', _, h1, h2, h3⟩ := go n s' t hs ht
    rw [hP] at h1
    cases h1
    exact ih m s3 _ h2 h3 rfl
  | alloc o k ih =>
    intro n s' t hs ht hP
    obtain ⟨m, s3, rs, m0, mem, P', _, h1, h2, h3⟩ := go n s' t hs ht
    rw [hP] at h1
    cases h1
    exact ih _ m s3 _ h2 h3 rfl
  | modify p f k ih =>
    intro n s' t hs ht hP
    obtain ⟨m, s3, rs, m0, mem, P', _, h1, h2, h3⟩ := go n s' t hs ht
    rw [hP] at h1
    simp only [Prog.step] at h1
    split at h1
    · cases h1
    · obtain ⟨o', _, e⟩ := Except.map_ok h1
      cases e
      exact ih m s3 _ h2 h3 rfl
  | read p k ih =>
    intro n s' t hs ht hP
    obtain ⟨m, s3, rs, m0, mem, P', _, h1, h2, h3⟩ := go n s' t hs ht
    rw [hP] at h1
    simp only [Prog.step] at h1
    split at h1
    · cases h1
    · cases h1
      exact ih _ m s3 _ h2 h3 rfl
  | emit r k ih =>
    intro n s' t hs ht hP
    obtain ⟨m, s3, rs, m0, mem, P', _, h1, h2, h3⟩ := go n s' t hs ht
    rw [hP] at h1
    cases h1
    exact ih m s3 _ h2 h3 rfl

end Vcd.Threads
