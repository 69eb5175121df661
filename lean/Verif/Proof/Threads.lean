import Verif.Spec.Threads
import Verif.Props.CodeTable

/-! # Programs of threads -/

namespace Vcd
namespace Prog

theorem bind_ret {α β : Type} (a : α) (f : α → Prog β) : (ret a).bind f = f a := rfl

theorem lift_ok {α β : Type} (a : α) (f : α → Prog β) : (lift (.ok a)).bind f = f a := rfl

end Prog

namespace Threads
open Spec

/-- The finished objects. -/
def final (M : InstructionMap) : Global → Obj
  | .removeTable => .table ((RollingHash.removeTable kBlockSize).map some)
  | .defaultMap => .map M

theorem final_kind (M : InstructionMap) (g : Global) : (final M g).kind = g := by cases g <;> rfl

/-- What a thread may rely on, and what it has still to do: pointers it knows to be published, the object it is
making, the replies to come, and the kinds of objects it has made. -/
structure Local where
  known : List (Global × Nat) := []
  own : Option (Nat × Obj) := none
  expected : List ThreadReply := []
  spent : List Global := []

/-- A static pointer is known not to be null. -/
def Local.Set (L : Local) (g : Global) : Prop := ∃ p, (g, p) ∈ L.known

/-- The program does nothing wrong and ends with `Q`, whatever the other threads do, as long as they do
nothing wrong. -/
def wp (M : InstructionMap) {α : Type} : Prog α → (Local → α → Prop) → Local → Prop
  | .ret a, Q, L => Q L a
  | .fault _, _, _ => False
  | .load g k, Q, L => (∀ p, wp M (k (some p)) Q { L with known := (g, p) :: L.known }) ∧
      (¬ L.Set g → wp M (k none) Q L)
  | .set g p k, Q, L => L.own = some (p, final M g) ∧ wp M k Q { L with own := none, known := (g, p) :: L.known }
  | .alloc o k, Q, L => L.own = none ∧ ¬ L.Set o.kind ∧
      ∀ p, wp M (k p) Q { L with own := some (p, o), spent := o.kind :: L.spent }
  | .modify p f k, Q, L => ∃ o o', L.own = some (p, o) ∧ f o = .ok o' ∧ o'.kind = o.kind ∧
      wp M k Q { L with own := some (p, o') }
  | .read p k, Q, L => ∃ g, (g, p) ∈ L.known ∧ wp M (k (final M g)) Q L
  | .emit r k, Q, L => ∃ rest, L.expected = r :: rest ∧ wp M k Q { L with expected := rest }

theorem wp_bind {M : InstructionMap} {α β : Type} (P : Prog α) (f : α → Prog β) (Q : Local → β → Prop) (L : Local) :
    wp M (P.bind f) Q L ↔ wp M P (fun L a => wp M (f a) Q L) L := by
  induction P generalizing L with
  | ret a => exact Iff.rfl
  | fault => exact Iff.rfl
  | load g k ih => simp only [Prog.bind, wp, ih]
  | set g p k ih => simp only [Prog.bind, wp, ih]
  | alloc o k ih => simp only [Prog.bind, wp, ih]
  | modify p g k ih => simp only [Prog.bind, wp, ih]
  | read p k ih => simp only [Prog.bind, wp, ih]
  | emit r k ih => simp only [Prog.bind, wp, ih]

theorem wp_mono {M : InstructionMap} {α : Type} {P : Prog α} {Q Q' : Local → α → Prop} {L : Local}
    (h : wp M P Q L) (hq : ∀ L a, Q L a → Q' L a) : wp M P Q' L := by
  induction P generalizing L with
  | ret a => exact hq _ _ h
  | fault => exact h
  | load g k ih => exact ⟨fun p => ih _ (h.1 p), fun hn => ih _ (h.2 hn)⟩
  | set g p k ih => exact ⟨h.1, ih h.2⟩
  | alloc o k ih => exact ⟨h.1, h.2.1, fun p => ih _ (h.2.2 p)⟩
  | modify p g k ih =>
    obtain ⟨o, o', h1, h2, h3, h4⟩ := h
    exact ⟨o, o', h1, h2, h3, ih h4⟩
  | read p k ih =>
    obtain ⟨g, h1, h2⟩ := h
    exact ⟨g, h1, ih _ h2⟩
  | emit r k ih =>
    obtain ⟨rest, h1, h2⟩ := h
    exact ⟨rest, h1, ih h2⟩

/-- A piece of program between the commands makes no reply, leaves no object half made, and the thread
knows at least what it knew before. -/
structure Local.Step (L L' : Local) : Prop where
  known : ∀ x ∈ L.known, x ∈ L'.known
  own : L'.own = none
  expected : L'.expected = L.expected

theorem Local.Step.trans {L L' L'' : Local} (h : L.Step L') (h' : L'.Step L'') : L.Step L'' :=
  ⟨fun x hx => h'.known x (h.known x hx), h'.own, h'.expected.trans h.expected⟩

theorem Local.Step.refl {L : Local} (h : L.own = none) : L.Step L := ⟨fun _ hx => hx, h, rfl⟩

theorem Local.Step.set {L L' : Local} (h : L.Step L') {g : Global} (hg : L.Set g) : L'.Set g :=
  hg.elim fun p hp => ⟨p, h.known _ hp⟩

/-! ## The rolling hash -/

theorem removeTableLoop_length (mult : UInt32) (n : Nat) (x : UInt32) :
    (RollingHash.removeTableLoop mult n x).length = n := by
  induction n generalizing x with
  | zero => rfl
  | succ n ih => rw [RollingHash.removeTableLoop, List.length_cons, ih]

theorem fillTable_wp {M : InstructionMap} {p : Nat} {mult : UInt32} {Q : Local → Unit → Prop} (n : Nat) :
    ∀ (i : Nat) (x : UInt32) (done : List (Option UInt32)) (L : Local), done.length = i →
      L.own = some (p, .table (done ++ List.replicate n none)) →
      Q { L with own := some (p, .table (done ++ (RollingHash.removeTableLoop mult n x).map some)) } () →
      wp M (fillTable p mult n i x) Q L := by
  induction n with
  | zero =>
    intro i x done L hd ho hq
    rw [RollingHash.removeTableLoop] at hq
    simp only [List.replicate_zero, List.map_nil] at ho hq
    rw [← ho] at hq
    exact hq
  | succ n ih =>
    intro i x done L hd ho hq
    refine ⟨_, .table ((done ++ [some (RollingHash.findModBaseInverse x)]) ++ List.replicate n none), ho, ?_, rfl, ?_⟩
    · rw [writeCell, if_pos (by simp; omega)]
      congr 2
      rw [List.replicate_succ, List.set_append_right i _ (by omega), hd.symm, Nat.sub_self, List.set_cons_zero]
      simp
    · refine ih (i + 1) _ (done ++ [some (RollingHash.findModBaseInverse x)]) _ (by simp [hd]) rfl ?_
      rw [RollingHash.removeTableLoop] at hq
      simpa using hq

theorem rollingHashInit_wp {M : InstructionMap} {L : Local} (ho : L.own = none) :
    wp M rollingHashInit (fun L' _ => L.Step L' ∧ L'.Set .removeTable) L := by
  refine ⟨fun p => ⟨⟨fun x hx => List.mem_cons_of_mem _ hx, ho, rfl⟩, p, List.mem_cons_self ..⟩, fun hn => ?_⟩
  refine ⟨ho, hn, fun p => ?_⟩
  refine (wp_bind _ _ _ _).2 (fillTable_wp 256 0 0 [] _ rfl (by rw [List.nil_append]) ?_)
  refine ⟨by rw [List.nil_append]; rfl, ?_⟩
  exact ⟨⟨fun x hx => List.mem_cons_of_mem _ hx, rfl, rfl⟩, p, List.mem_cons_self ..⟩

theorem updateHash_wp {M : InstructionMap} {L : Local} (ho : L.own = none) (hs : L.Set .removeTable) (h : UInt32)
    (old new : UInt8) :
    wp M (updateHash h old new) (fun L' v => L.Step L' ∧ v = RollingHash.updateHash kBlockSize h old new) L := by
  refine ⟨fun p => ⟨.removeTable, List.mem_cons_self .., ?_⟩, fun hn => absurd hs hn⟩
  have hl : (RollingHash.removeTable kBlockSize).length = 256 := removeTableLoop_length ..
  have hlt : old.toNat < (RollingHash.removeTable kBlockSize).length := by
    rw [hl]; exact old.toNat_lt
  have hc : cell (final M .removeTable) old = .ok ((RollingHash.removeTable kBlockSize).getD old.toNat 0) := by
    simp only [cell, final, List.getElem?_map, List.getElem?_eq_getElem hlt, Option.map_some,
      List.getD_eq_getElem?_getD, Option.getD_some]
  dsimp only
  rw [hc]
  exact ⟨⟨fun x hx => List.mem_cons_of_mem _ hx, ho, rfl⟩, rfl⟩

/-! ## The default instruction map -/

theorem forFirst_wp {M : InstructionMap} {p : Nat} {Q : Local → Unit → Prop} {fm' : FirstMap} (ops : List UInt8) :
    ∀ (fm : FirstMap) (sm : SecondMap) (L : Local), ops.foldlM (firstPass defaultTable) fm = some fm' →
      L.own = some (p, .map ⟨fm, sm⟩) → Q { L with own := some (p, .map ⟨fm', sm⟩) } () →
      wp M (forOpcodes p addFirst ops) Q L := by
  induction ops with
  | nil =>
    intro fm sm L hf ho hq
    simp only [List.foldlM_nil, pure, Option.some.injEq] at hf
    subst hf
    rw [← ho] at hq
    exact hq
  | cons op ops ih =>
    intro fm sm L hf ho hq
    rw [List.foldlM_cons] at hf
    cases h1 : firstPass defaultTable fm op with
    | none => rw [h1] at hf; cases hf
    | some fm1 =>
      rw [h1] at hf
      refine ⟨_, .map ⟨fm1, sm⟩, ho, by rw [addFirst]; simp only [h1], rfl, ?_⟩
      exact ih fm1 sm _ hf rfl hq

theorem forSecond_wp {M : InstructionMap} {p : Nat} {Q : Local → Unit → Prop} {fm : FirstMap} {sm' : SecondMap}
    (ops : List UInt8) : ∀ (sm : SecondMap) (L : Local), ops.foldlM (secondPass defaultTable fm) sm = some sm' →
      L.own = some (p, .map ⟨fm, sm⟩) → Q { L with own := some (p, .map ⟨fm, sm'⟩) } () →
      wp M (forOpcodes p addSecond ops) Q L := by
  induction ops with
  | nil =>
    intro sm L hf ho hq
    simp only [List.foldlM_nil, pure, Option.some.injEq] at hf
    subst hf
    rw [← ho] at hq
    exact hq
  | cons op ops ih =>
    intro sm L hf ho hq
    rw [List.foldlM_cons] at hf
    cases h1 : secondPass defaultTable fm sm op with
    | none => rw [h1] at hf; cases hf
    | some sm1 =>
      rw [h1] at hf
      refine ⟨_, .map ⟨fm, sm1⟩, ho, by rw [addSecond]; simp only [h1], rfl, ?_⟩
      exact ih sm1 _ hf rfl hq

theorem getDefaultInstructionMap_wp {M : InstructionMap} (hM : defaultMap = some M) {L : Local} (ho : L.own = none) :
    wp M getDefaultInstructionMap (fun L' q => L.Step L' ∧ ∃ p, q = some p ∧ (Global.defaultMap, p) ∈ L'.known) L := by
  have again : ∀ L' : Local, L.Step L' → L'.Set .defaultMap →
      wp M (.load .defaultMap .ret) (fun L' q => L.Step L' ∧ ∃ p, q = some p ∧ (Global.defaultMap, p) ∈ L'.known) L' := by
    intro L' hst hset
    exact ⟨fun p => ⟨⟨fun x hx => List.mem_cons_of_mem _ (hst.known x hx), hst.own, hst.expected⟩, p, rfl,
      List.mem_cons_self ..⟩, fun hn => absurd hset hn⟩
  refine ⟨fun p => ?_, fun hn => ?_⟩
  · exact again _ ⟨fun x hx => List.mem_cons_of_mem _ hx, ho, rfl⟩ ⟨p, List.mem_cons_self ..⟩
  · refine ⟨ho, hn, fun p => ?_⟩
    rw [defaultMap, InstructionMap.build] at hM
    split at hM
    · cases hM
    · rename_i fm hfm
      split at hM
      · cases hM
      · rename_i sm hsm
        cases hM
        refine (wp_bind _ _ _ _).2 ((wp_bind _ _ _ _).2 ?_)
        refine forFirst_wp allOpcodes emptyMap.firstMap emptyMap.secondMap _ hfm rfl ?_
        refine (wp_bind _ _ _ _).2 ?_
        refine forSecond_wp allOpcodes emptyMap.secondMap _ hsm rfl ?_
        refine ⟨rfl, again _ ⟨fun x hx => List.mem_cons_of_mem _ hx, rfl, rfl⟩ ⟨p, List.mem_cons_self ..⟩⟩

/-! ## The engine -/

theorem encodeLoop_wp {M : InstructionMap} {hashed : BlockHash} {target : Bytes} (fuel : Nat) :
    ∀ (ne c : Nat) (h : UInt32) (th : Option BlockHash) (calls : List CoderCall) (r : Nat × List CoderCall) (L : Local),
      L.own = none → L.Set .removeTable → Engine.encodeLoop hashed target fuel ne c h th calls = .ok r →
      wp M (encodeLoop hashed target fuel ne c h th calls) (fun L' r' => L.Step L' ∧ r' = r) L := by
  induction fuel with
  | zero => intro ne c h th calls r L _ _ he; simp [Engine.encodeLoop] at he
  | succ fuel ih =>
    intro ne c h th calls r L ho hs he
    rw [Engine.encodeLoop] at he
    rw [encodeLoop]
    cases h1 : Engine.encodeCopyForBestMatch hashed th h (target.drop ne) (c - ne) with
    | error f => rw [h1] at he; cases he
    | ok q =>
      obtain ⟨n, made⟩ := q
      rw [h1] at he
      simp only [bind, Except.bind] at he
      rw [Prog.lift_ok]
      dsimp only
      by_cases hn : n > 0
      · rw [if_pos hn] at he ⊢
        by_cases hle : ne + n > target.length - kBlockSize
        · rw [if_pos hle] at he ⊢
          cases he
          exact ⟨.refl ho, rfl⟩
        · rw [if_neg hle] at he ⊢
          cases h2 : readBlock target (ne + n) with
          | error f => rw [h2] at he; cases he
          | ok block =>
            rw [h2] at he
            rw [Prog.lift_ok]
            cases h3 : Engine.updateTargetHash th (·.addAllBlocksThroughIndex (toInt32 (ne + n))) with
            | error f => rw [h3] at he; cases he
            | ok th' =>
              rw [h3] at he
              rw [Prog.lift_ok]
              exact ih _ _ _ _ _ _ _ ho hs he
      · rw [if_neg hn] at he ⊢
        by_cases hle : c + 1 > target.length - kBlockSize
        · rw [if_pos hle] at he ⊢
          cases he
          exact ⟨.refl ho, rfl⟩
        · rw [if_neg hle] at he ⊢
          cases h3 : Engine.updateTargetHash th (·.addOneIndexHash c h) with
          | error f => rw [h3] at he; cases he
          | ok th' =>
            rw [h3] at he
            rw [Prog.lift_ok]
            cases h4 : target[c]? with
            | none => rw [h4] at he; cases he
            | some old =>
              cases h5 : target[c + kBlockSize]? with
              | none => rw [h4, h5] at he; cases he
              | some new =>
                rw [h4, h5] at he
                dsimp only at he ⊢
                refine (wp_bind _ _ _ _).2 (wp_mono (updateHash_wp ho hs h old new) ?_)
                rintro L' v ⟨hst, rfl⟩
                exact wp_mono (ih _ _ _ _ _ _ _ hst.own (hst.set hs) he) fun L'' r' hr => ⟨hst.trans hr.1, hr.2⟩

theorem encode_wp {M : InstructionMap} {e : Engine} {matching : Bool} {target : Bytes} {calls : List CoderCall} {L : Local}
    (ho : L.own = none) (hs : L.Set .removeTable) (he : e.encode matching target = .ok calls) :
    wp M (encode e matching target) (fun L' r => L.Step L' ∧ r = calls) L := by
  rw [Engine.encode] at he
  rw [encode]
  cases hh : e.hashed with
  | none => rw [hh] at he; cases he
  | some hashed =>
    rw [hh] at he
    dsimp only at he ⊢
    by_cases h0 : target.length = 0
    · rw [if_pos h0] at he ⊢
      cases he
      exact ⟨.refl ho, rfl⟩
    · rw [if_neg h0] at he ⊢
      by_cases h1 : target.length < kBlockSize
      · rw [if_pos h1] at he ⊢
        cases he
        exact ⟨.refl ho, rfl⟩
      · rw [if_neg h1] at he ⊢
        refine ⟨fun p => ?_, fun hn => absurd hs hn⟩
        dsimp only
        have hst : L.Step { L with known := (.removeTable, p) :: L.known } :=
          ⟨fun x hx => List.mem_cons_of_mem _ hx, ho, rfl⟩
        cases h2 : e.createTargetHash matching target with
        | error f => rw [h2] at he; cases he
        | ok th =>
          rw [h2] at he
          rw [Prog.lift_ok]
          cases h3 : readBlock target 0 with
          | error f => rw [h3] at he; cases he
          | ok block =>
            rw [h3] at he
            rw [Prog.lift_ok]
            cases h4 : Engine.encodeLoop hashed target (target.length + 1) 0 0 (RollingHash.hash block) th [] with
            | error f => simp only [bind, Except.bind, h4] at he; cases he
            | ok r =>
              obtain ⟨ne, cs⟩ := r
              simp only [bind, Except.bind, h4] at he
              cases he
              refine (wp_bind _ _ _ _).2 (wp_mono (encodeLoop_wp _ _ _ _ _ _ _ _ hst.own (hst.set hs) h4) ?_)
              rintro L' r ⟨hst', rfl⟩
              exact ⟨hst.trans hst', rfl⟩

theorem engineInit_wp {M : InstructionMap} {dict : Bytes} {r : Option Engine} {L : Local} (ho : L.own = none)
    (he : Engine.init dict = .ok r) :
    wp M (engineInit dict) (fun L' r' => L.Step L' ∧ r' = r ∧ (r ≠ none → L'.Set .removeTable)) L := by
  rw [engineInit, he, Prog.lift_ok]
  cases r with
  | none => exact ⟨.refl ho, rfl, fun h => absurd rfl h⟩
  | some e =>
    refine (wp_bind _ _ _ _).2 (wp_mono (rollingHashInit_wp ho) ?_)
    rintro L' _ ⟨hst, hs⟩
    exact ⟨hst, rfl, fun _ => hs⟩

end Threads
end Vcd
