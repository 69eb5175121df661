import Verif.Proof.ThreadSystem
import Verif.Proof.ThreadLimits
import Verif.Props.Encoder

/-!
# C55: encoders in several threads

One thread executes the commands `setup`, for example the construction of a dictionary. Then any number of
threads start; each has its own program, a list of commands that construct dictionaries and encoders and call
the encoders, and begins with the dictionary of the first thread, which they share (`Threads.launch`). The
accesses of the threads to the data they share, the two tables that the library makes when they are first
needed, are executed in the order of an arbitrary schedule (`System.run`).

`Spec.alone engine cs` are the replies to the commands `cs` in a thread that has the library for itself
(`Verif.Spec.Threads`).
-/

namespace Vcd.Props
open Vcd Vcd.Spec Vcd.Threads

/-- All programs come to an end when they run alone. -/
theorem modest_alone {setup : List Command} {programs : List (List Command)} (h : ∀ cs ∈ setup :: programs, Modest cs) :
    ∃ rs0 s0, Own.commands {} setup = .ok (rs0, s0) ∧ ∀ cs ∈ programs, ∃ rs, alone s0.engine cs = .ok rs := by
  obtain ⟨m, u⟩ := Encoder.usable
  have hs := h setup (List.mem_cons_self ..)
  obtain ⟨rs0, s0, h1, h2⟩ := Own.Good.commands u setup (s := {}) ⟨by simp, by simp⟩ hs.1 hs.2
  refine ⟨rs0, s0, h1, fun cs hcs => ?_⟩
  have hc := h cs (List.mem_cons_of_mem _ hcs)
  obtain ⟨rs, s, k1, _⟩ := Own.Good.commands u cs (s := { engine := s0.engine }) ⟨h2.engine, by simp⟩ hc.1 hc.2
  exact ⟨rs, by rw [alone, k1]; rfl⟩

/-- The list of the replies of all threads. -/
theorem exists_totals {engine : Option Engine} {programs : List (List Command)}
    (h : ∀ cs ∈ programs, ∃ rs, alone engine cs = .ok rs) :
    ∃ totals : List (List ThreadReply), totals.length = programs.length ∧
      ∀ (i : Nat) cs rs, programs[i]? = some cs → totals[i]? = some rs → alone engine cs = .ok rs := by
  induction programs with
  | nil => exact ⟨[], rfl, by simp⟩
  | cons c programs ih =>
    obtain ⟨totals, h1, h2⟩ := ih fun cs hcs => h cs (List.mem_cons_of_mem _ hcs)
    obtain ⟨rs, hrs⟩ := h c (List.mem_cons_self ..)
    refine ⟨rs :: totals, by simp [h1], fun i cs rs' hi hj => ?_⟩
    cases i with
    | zero => cases hi; cases hj; exact hrs
    | succ i => exact h2 i cs rs' hi hj

/-- The invariant of a system that has been launched. -/
theorem launched {setup : List Command} {programs : List (List Command)} (h : ∀ cs ∈ setup :: programs, Modest cs) :
    ∃ M rs0 s0 s Ls totals, Own.commands {} setup = .ok (rs0, s0) ∧ launch setup programs = .ok s ∧
      SInv M s Ls totals ∧ totals.length = programs.length ∧
      ∀ (i : Nat) cs rs, programs[i]? = some cs → totals[i]? = some rs → alone s0.engine cs = .ok rs := by
  obtain ⟨M, hM⟩ := default_map_builds
  obtain ⟨rs0, s0, h0, hall⟩ := modest_alone h
  obtain ⟨totals, h1, h2⟩ := exists_totals hall
  obtain ⟨s, Ls, h3, h4⟩ := launch_inv hM h0 h1 h2
  exact ⟨M, rs0, s0, s, Ls, totals, h0, h3, h4, h1, h2⟩

/-- C55: threads do not disturb one another. However the steps of the threads are interleaved, there is no
undefined behaviour and no failed check; at every moment the replies a thread has got are the first of those
it would have got alone, and a thread that has come to its end has got all of them. -/
theorem threads_do_not_interfere (setup : List Command) (programs : List (List Command))
    (h : ∀ cs ∈ setup :: programs, Modest cs) :
    ∃ rs0 s0 s, Own.commands {} setup = .ok (rs0, s0) ∧ launch setup programs = .ok s ∧
      ∀ sched : List Nat, ∃ s', s.run sched = .ok s' ∧ s'.threads.length = programs.length ∧
        ∀ (i : Nat) cs t, programs[i]? = some cs → s'.threads[i]? = some t →
          ∃ rs, alone s0.engine cs = .ok rs ∧ t.replies <+: rs ∧ (t.Finished → t.replies = rs) := by
  obtain ⟨M, rs0, s0, s, Ls, totals, h0, h1, h2, h3, h4⟩ := launched h
  refine ⟨rs0, s0, s, h0, h1, fun sched => ?_⟩
  obtain ⟨s', Ls', k1, k2⟩ := h2.run sched
  refine ⟨s', k1, by rw [k2.count, h3], fun i cs t hcs ht => ?_⟩
  have li : i < programs.length := (List.getElem?_eq_some_iff.1 hcs).1
  obtain ⟨rs, hrs⟩ : ∃ rs, totals[i]? = some rs := ⟨_, List.getElem?_eq_getElem (by omega)⟩
  exact ⟨rs, h4 i cs rs hcs hrs, k2.thread ht hrs⟩

/-- C55: a thread that is scheduled again and again comes to its end, whatever the others do; none waits for
another. -/
theorem every_thread_finishes (setup : List Command) (programs : List (List Command))
    (h : ∀ cs ∈ setup :: programs, Modest cs) (sched : Nat → Nat) (i : Nat) (hi : i < programs.length)
    (hfair : ∀ n, ∃ m, n ≤ m ∧ sched m = i) :
    ∃ s s' t n, launch setup programs = .ok s ∧ s.run ((List.range n).map sched) = .ok s' ∧
      s'.threads[i]? = some t ∧ t.Finished := by
  obtain ⟨M, rs0, s0, s, Ls, totals, h0, h1, h2, h3, h4⟩ := launched h
  have hok : ∀ n, ∃ s', s.after sched n = .ok s' := fun n => by
    obtain ⟨s', _, k, _⟩ := h2.run ((List.range n).map sched)
    exact ⟨s', k⟩
  obtain ⟨t, ht⟩ : ∃ t, s.threads[i]? = some t :=
    ⟨_, List.getElem?_eq_getElem (by rw [h2.count, h3]; exact hi)⟩
  obtain ⟨n, s', t', k1, k2, k3⟩ := finishes hok hfair t.todo 0 s t rfl ht rfl
  exact ⟨s, s', t', n, h1, k1, k2, k3⟩

/-- C55: the tables that are made at most: two for each thread. -/
theorem tables_made_at_most (setup : List Command) (programs : List (List Command))
    (h : ∀ cs ∈ setup :: programs, Modest cs) :
    ∃ s, launch setup programs = .ok s ∧ ∀ sched : List Nat, ∃ s', s.run sched = .ok s' ∧
      s'.memory.heap.length ≤ 2 * (programs.length + 1) := by
  obtain ⟨M, rs0, s0, s, Ls, totals, h0, h1, h2, h3, h4⟩ := launched h
  refine ⟨s, h1, fun sched => ?_⟩
  obtain ⟨s', Ls', k1, k2⟩ := h2.run sched
  exact ⟨s', k1, by rw [← h3]; exact k2.size⟩

/-- The commands of a thread that encodes some chunks with the dictionary it starts with. -/
def encodeJob (flags : Nat) (matching : Bool) (chunks : List Bytes) : List Command :=
  .encoder flags matching :: .call .start :: chunks.map (.call ∘ .chunk) ++ [.call .finish]

theorem Own.commands_calls (cs : List EncoderCall) : ∀ {s : Own} {e e' : Encoder} {rs : List EncoderReply},
    s.encoder = some e → e.calls cs = .ok (rs, e') →
    s.commands (cs.map .call) = .ok (rs.map .called, { s with encoder := some e' }) := by
  induction cs with
  | nil =>
    intro s e e' rs hs h
    cases h
    cases s
    cases hs
    rfl
  | cons c cs ih =>
    intro s e e' rs hs h
    rw [Encoder.calls] at h
    split at h
    · cases h
    · rename_i r e1 h1
      split at h
      · cases h
      · rename_i rs' e2 h2
        cases h
        have := ih (s := { s with encoder := some e1 }) rfl h2
        simp only [List.map_cons, Own.commands, Own.command, hs, h1, this]
        rfl

/-- C55: many threads share one dictionary, and each encodes its own chunks. Under every schedule, the delta
of a thread that has come to its end decodes to its chunks, in any division into chunks. -/
theorem shared_dictionary_round_trip (dict : Bytes) (hdict : dict.length < 2 ^ 30)
    (jobs : List (Nat × Bool × List Bytes)) (hjobs : ∀ job ∈ jobs, job.1 &&& 4 = 0 ∧ ∀ data ∈ job.2.2, data.length < 2 ^ 30) :
    ∃ s, launch [.dictionary dict] (jobs.map fun job => encodeJob job.1 job.2.1 job.2.2) = .ok s ∧
      ∀ sched : List Nat, ∃ s', s.run sched = .ok s' ∧
        ∀ (i : Nat) flags matching chunks t, jobs[i]? = some (flags, matching, chunks) → s'.threads[i]? = some t → t.Finished →
          ∀ r : Settings, (∀ data ∈ chunks, data.length ≤ r.maxWindow) → chunks.flatten.length ≤ r.maxFile →
            ∀ cs : List Bytes, cs.flatten = outputs t.replies → (configured r).decode dict cs = some chunks.flatten := by
  have hm : ∀ cs ∈ [Command.dictionary dict] :: jobs.map fun job => encodeJob job.1 job.2.1 job.2.2, Modest cs := by
    intro cs hcs
    rcases List.mem_cons.1 hcs with rfl | hcs
    · refine ⟨fun c hc => ?_, fun c hc => ?_⟩
      · simp at hc; subst hc; exact hdict
      · simp at hc
    · obtain ⟨⟨flags, matching, chunks⟩, hj, rfl⟩ := List.mem_map.1 hcs
      refine ⟨fun c hc => ?_, fun c hc => ?_⟩
      · simp [encodeJob] at hc
      · simp [encodeJob] at hc
        exact (hjobs _ hj).2 c hc
  obtain ⟨rs0, s0, s, h0, h1, h2⟩ := threads_do_not_interfere _ _ hm
  refine ⟨s, h1, fun sched => ?_⟩
  obtain ⟨s', k1, k2, k3⟩ := h2 sched
  refine ⟨s', k1, fun i flags matching chunks t hj ht hfin r hwin hfile cs hcs => ?_⟩
  have hj' := hjobs _ (List.mem_of_getElem? hj)
  obtain ⟨rs, r1, _, r2⟩ := k3 i (encodeJob flags matching chunks) t (by rw [List.getElem?_map, hj]; rfl) ht
  have r2 := r2 hfin
  obtain ⟨delta, d1, d2⟩ := round_trip dict (by omega) flags hj'.1 matching chunks
    (fun data hd => by have := hj'.2 data hd; omega) r hwin hfile
  refine d2 cs ?_
  rw [hcs, r2]
  -- the dictionary all threads have got
  rw [Vcd.encode] at d1
  split at d1
  · cases d1
  · cases d1
  · rename_i engine he
    split at d1
    · cases d1
    · rename_i rs1 e1 hc
      have hs0 : s0.engine = some engine := by
        simp only [Own.commands, Own.command, he] at h0
        cases h0
        rfl
      have hjob : encodeJob flags matching chunks =
          .encoder flags matching :: ([EncoderCall.start] ++ chunks.map EncoderCall.chunk ++ [EncoderCall.finish]).map .call := by
        simp [encodeJob]
      have := Own.commands_calls _ (s := { engine := some engine, encoder := some (Encoder.new engine flags matching) }) rfl hc
      rw [alone, hs0, hjob, Own.commands] at r1
      simp only [Own.command, Option.map_some] at r1
      rw [this] at r1
      cases r1
      split at d1
      · cases d1
        simp [outputs, List.flatMap_map]
      · cases d1

/-! ## Instances -/

/-- Two threads that share a dictionary, and a third that makes its own: the programs are modest. -/
example : ∀ cs ∈ [.dictionary [0x61]] :: [encodeJob 0 true [[0x61], [0x62]], encodeJob 7 false [[0x63]],
    .dictionary [0x62] :: encodeJob 3 true [[0x61]]], Modest cs := by
  intro cs hcs
  simp only [List.mem_cons, List.not_mem_nil, or_false] at hcs
  rcases hcs with rfl | rfl | rfl | rfl <;> constructor <;> intro x hx <;> simp [encodeJob] at hx <;>
    (try rcases hx with rfl | rfl) <;> (try subst hx) <;> simp

/-- The whole life of the shared tables, in one execution: two threads construct a dictionary at the same
time, and both find that there is no table. Both make one; the second replaces the first, which is never
deleted. Then both encode. The replies are those of threads that are alone. -/
theorem table_leaked_in_race :
    let job := .dictionary [] :: encodeJob 0 true [[0x61]]
    let sched := [0, 1] ++ List.replicate 1000 0 ++ List.replicate 1000 1
    let replies : List ThreadReply := [.inited true, .called ⟨true, [0xD6, 0xC3, 0xC4, 0, 0]⟩,
      .called ⟨true, [1, 0, 0, 7, 1, 0, 1, 1, 0, 0x61, 2]⟩, .called ⟨true, []⟩]
    ((launch [] [job, job]).toOption.bind fun s => (s.run sched).toOption.map fun s' =>
      (s'.memory.removeTable, (s'.memory.heap.map Obj.kind).count .removeTable, s'.threads.map Thread.replies)) =
      some (some 2, 2, [replies, replies]) := by
  decide +kernel

end Vcd.Props
