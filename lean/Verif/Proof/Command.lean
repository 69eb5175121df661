import Verif.Proof.MainRun

/-! Lemmas about the command: it comes to an end, and encoding does not fault. -/

namespace Vcd.Cli
open Spec

/-- If every turn that is not the last one reads at least a byte, then there is a last one. -/
theorem turns_stop {σ : Type} {turn : Stage σ → Except Fault (Turn σ)} {P : Stage σ → Prop} {len : Nat}
    (h : ∀ st st', P st → turn st = .ok (.next st') → P st' ∧ st.input.offset < st'.input.offset ∧ st'.input.offset ≤ len)
    {n : Nat} {st st' : Stage σ} (hp : P st) (hn : len - st.input.offset < n) : turns turn n st ≠ .ok (.next st') := by
  induction n generalizing st with
  | zero => omega
  | succ n ih =>
    intro hr
    simp only [turns] at hr
    split at hr
    · cases hr
    · rename_i st1 h1
      obtain ⟨h2, h3, h4⟩ := h st st1 hp h1
      exact ih h2 (by omega) hr
    · rename_i h1 h2
      cases hr
      exact h1 _ rfl

/-- If no turn faults, the loop does not. -/
theorem turns_no_fault {σ : Type} {turn : Stage σ → Except Fault (Turn σ)} {P : Stage σ → Prop}
    (h : ∀ st, P st → ∃ r, turn st = .ok r ∧ ∀ st', r = .next st' → P st') {n : Nat} {st : Stage σ} (hp : P st) :
    ∃ r, turns turn n st = .ok r := by
  induction n generalizing st with
  | zero => exact ⟨_, rfl⟩
  | succ n ih =>
    obtain ⟨r, h1, h2⟩ := h st hp
    simp only [turns, h1]
    cases r with
    | next st' => exact ih (h2 st' rfl)
    | last st' => exact ⟨_, rfl⟩
    | fail st' => exact ⟨_, rfl⟩

section
variable {t : Trouble} {base : System} {inName outName : String} {c : Bytes}

/-- A fault in the last call is a fault of all of them. -/
theorem encoder_snoc_fault {e e1 : Encoder} {cs : List EncoderCall} {x : EncoderCall} {rs : List EncoderReply} {f : Fault}
    (h1 : e.calls cs = .ok (rs, e1)) (h2 : e1.call x = .error f) : e.calls (cs ++ [x]) = .error f := by
  induction cs generalizing e rs with
  | nil =>
    simp only [Encoder.calls, Except.ok.injEq, Prod.mk.injEq] at h1
    rw [h1.2]
    simp only [List.nil_append, Encoder.calls, h2]
  | cons a as ih =>
    simp only [List.cons_append, Encoder.calls] at h1 ⊢
    cases ha : e.call a with
    | error f => rw [ha] at h1; simp at h1
    | ok p =>
      obtain ⟨r1, e'⟩ := p
      rw [ha] at h1
      simp only at h1 ⊢
      cases hcs : e'.calls as with
      | error f => rw [hcs] at h1; simp at h1
      | ok p =>
        rw [hcs] at h1
        simp only [Except.ok.injEq, Prod.mk.injEq] at h1
        obtain ⟨_, hx2⟩ := h1
        rw [ih (rs := p.1) (by rw [hcs, ← hx2])]

/-- Whatever goes wrong, a turn of `Encode` does not fault if the library does not. -/
theorem EncAt.no_fault {e0 : Encoder} {h0 : Bytes} (hin : ∀ x, (base.put outName x).input inName = c) {size : Nat}
    {st : Stage Encoder} {cs : List Bytes} (h : EncAt t base inName outName c e0 h0 size st cs)
    (hlib : ∀ cs : List Bytes, cs.flatten <+: c → (∀ x ∈ cs, x.length ≤ min size c.length) →
      ∃ rs e', e0.calls (cs.map .chunk) = .ok (rs, e')) :
    ∃ r, encodeTurn t size st = .ok r := by
  obtain ⟨rs, k1, k2, k3⟩ := h.called
  unfold encodeTurn
  cases hw : writeOutput t st.sys st.out st.pending with
  | mk sys p =>
    obtain ⟨out, ok⟩ := p
    simp only
    obtain ⟨w1, w2, w3, w4⟩ := writeOutput_spec h.sys hw
    cases ok with
    | false => exact ⟨_, rfl⟩
    | true =>
      simp only [Bool.true_eq_false, if_false]
      have hc : sys.input st.input.name = c := by rw [w1, w2, h.oname, h.iname, hin]
      cases hf : st.input.fread t sys size with
      | none => exact ⟨_, rfl⟩
      | some q =>
        obtain ⟨data, input⟩ := q
        simp only
        obtain ⟨f1, f2, f3, f4, f5, f6⟩ := fread_spec hf (by rw [hc]; exact h.off)
        rw [hc] at f1 f4 f5
        by_cases hd0 : data = []
        · rw [if_pos hd0]; exact ⟨_, rfl⟩
        · rw [if_neg hd0]
          cases hcall : st.coder.call (.chunk data) with
          | ok p =>
            obtain ⟨rep, coder⟩ := p
            simp only
            split
            · exact ⟨_, rfl⟩
            · exact ⟨_, rfl⟩
          | error f =>
            exfalso
            obtain ⟨rs2, e2, l1⟩ := hlib (cs ++ [data]) (by
              simp only [List.flatten_append, List.flatten_cons, List.flatten_nil, List.append_nil]
              rw [h.read, f1, take_add]
              exact List.take_prefix _ _) (by
              intro x hx
              rcases List.mem_append.1 hx with hx | hx
              · have h1 := h.sizes x hx
                have h2 : x.length ≤ cs.flatten.length := by
                  obtain ⟨a, b, e⟩ := List.append_of_mem hx
                  rw [e]
                  simp only [List.flatten_append, List.flatten_cons, List.length_append]
                  omega
                rw [h.read, List.length_take] at h2
                omega
              · simp only [List.mem_singleton] at hx
                rw [hx, f1]
                simp only [List.length_take, List.length_drop]
                omega)
            rw [List.map_append, List.map_cons, List.map_nil, encoder_snoc_fault k1 hcall] at l1
            cases l1

end

section
variable {t : Trouble}

/-- `Encode` does not fault if the library does not. -/
theorem runEncode_no_fault {n : Nat} {a : Args} {s : System} (hs : s.stdout = []) (hin : a.target = "" ∨ a.target ≠ a.delta)
    (hlib : ∀ dict, s.files a.dictionary = some dict → ∃ engine rep coder, Engine.init dict = .ok (some engine) ∧
      (Encoder.new engine a.flags.format a.flags.targetMatches).call .start = .ok (rep, coder) ∧
      (rep.ret = true → ∀ cs : List Bytes, cs.flatten <+: s.input a.target →
        (∀ x ∈ cs, x.length ≤ min a.flags.buffersize (s.input a.target).length) →
        ∃ rs e', coder.calls (cs.map .chunk) = .ok (rs, e'))) :
    ∃ r, runEncode n t a s = .ok r := by
  unfold runEncode
  cases ho : openFiles t s a.flags.buffersize a.dictionary a.target a.delta with
  | none => exact ⟨_, rfl⟩
  | some q =>
    obtain ⟨dict, input, size, sys, out⟩ := q
    obtain ⟨h1, h2, h3, h4, h5⟩ := openFiles_some hs ho
    obtain ⟨engine, rep, coder, hi, hst, hcs⟩ := hlib dict h1
    simp only [hi, hst]
    by_cases hret : rep.ret = false
    · rw [if_pos hret]; exact ⟨_, rfl⟩
    · rw [if_neg hret]
      subst h2; subst h4; subst h5
      have hput : ∀ x, (s.put a.delta x).input a.target = s.input a.target := fun x => System.put_input hin x
      have hle : size ≤ a.flags.buffersize := by
        rcases h3 with ⟨_, h⟩ | ⟨_, h⟩ <;> omega
      have h0 : EncAt t s a.target a.delta (s.input a.target) coder rep.out size
          (Stage.mk (s.put a.delta []) { name := a.target } coder rep.out { name := a.delta }) [] :=
        ⟨congrArg (s.put a.delta) disk_nil.symm, rfl, rfl, rfl, Nat.zero_le _, by simp, by simp, ⟨by simp, by simp⟩, by simp, [], rfl,
          by simp, by simp⟩
      obtain ⟨r, hr⟩ := turns_no_fault (turn := encodeTurn t size) (n := n)
        (P := fun st => ∃ cs, EncAt t s a.target a.delta (s.input a.target) coder rep.out size st cs)
        (fun st hp => by
          obtain ⟨cs, hp⟩ := hp
          obtain ⟨r, k1⟩ := hp.no_fault hput (fun cs hpre hx =>
            hcs (by simpa using hret) cs hpre (fun x hm => by have := hx x hm; omega))
          refine ⟨r, k1, fun st' e => ?_⟩
          subst e
          exact (hp.turn hput k1).1) ⟨[], h0⟩
      rw [hr]
      simp only
      cases r with
      | next st => exact ⟨_, rfl⟩
      | fail st => exact ⟨_, rfl⟩
      | last st =>
        simp only [endEncode, Encoder.call]
        exact ⟨_, rfl⟩

/-- The loop of `Encode` ends. -/
theorem runEncode_ends {n : Nat} {a : Args} {s : System} {r : Run} (hs : s.stdout = []) (hflag : a.flags.buffersize ≠ 0)
    (hin : a.target = "" ∨ a.target ≠ a.delta) (hne : a.target = "" ∨ s.input a.target ≠ []) (h : runEncode n t a s = .ok r)
    (hn : (s.input a.target).length < n) : r.status ≠ none := by
  rcases runEncode_cases hs h with h | ⟨dict, size, h1, hsize, h | ⟨engine, rep, coder, turn, hi, hst, hret, ht, he⟩⟩
  · rw [h]; simp
  · rw [h]; simp
  · have hput : ∀ x, (s.put a.delta x).input a.target = s.input a.target := fun x => System.put_input hin x
    have hpos : 0 < size := by
      rcases hsize with ⟨_, h⟩ | ⟨h', h⟩
      · omega
      · have := List.length_pos_iff.2 (hne.resolve_left h')
        omega
    have h0 : EncAt t s a.target a.delta (s.input a.target) coder rep.out size
        (Stage.mk (s.put a.delta []) { name := a.target } coder rep.out { name := a.delta }) [] :=
      ⟨congrArg (s.put a.delta) disk_nil.symm, rfl, rfl, rfl, Nat.zero_le _, by simp, by simp, ⟨by simp, by simp⟩, by simp, [], rfl,
        by simp, by simp⟩
    cases turn with
    | next st =>
      exfalso
      refine turns_stop (turn := encodeTurn t size) (len := (s.input a.target).length)
        (P := fun st => ∃ cs, EncAt t s a.target a.delta (s.input a.target) coder rep.out size st cs) ?_ ⟨[], h0⟩
        (by simp only; omega) ht
      rintro st st' ⟨cs, hp⟩ hr
      obtain ⟨⟨cs', k1⟩, k2⟩ := hp.turn hput hr
      exact ⟨⟨cs', k1⟩, by omega, k1.off⟩
    | fail st => cases he; simp
    | last st =>
      simp only [endEncode] at he
      split at he
      · cases he
      · split at he <;> cases he <;> simp

/-- The loop of `Decode` ends. -/
theorem runDecode_ends {n : Nat} {a : Args} {s : System} {r : Run} (hs : s.stdout = []) (hflag : a.flags.buffersize ≠ 0)
    (hin : a.delta = "" ∨ a.delta ≠ a.target) (hne : a.delta = "" ∨ s.input a.delta ≠ []) (h : runDecode n t a s = .ok r)
    (hn : (s.input a.delta).length < n) : r.status ≠ none := by
  rcases runDecode_cases hs h with h | ⟨dict, size, turn, h1, hsize, ht, he⟩
  · rw [h]; simp
  · have hput : ∀ x, (s.put a.target x).input a.delta = s.input a.delta := fun x => System.put_input hin x
    have hpos : 0 < size := by
      rcases hsize with ⟨_, h⟩ | ⟨h', h⟩
      · omega
      · have := List.length_pos_iff.2 (hne.resolve_left h')
        omega
    have h0 : DecAt t s a.delta a.target (s.input a.delta) (decoder a.flags dict)
        (Stage.mk (s.put a.target []) { name := a.delta } (decoder a.flags dict) [] { name := a.target }) [] :=
      ⟨congrArg (s.put a.target) disk_nil.symm, rfl, rfl, rfl, Nat.zero_le _, rfl, by simp⟩
    cases turn with
    | next st =>
      exfalso
      refine turns_stop (turn := decodeTurn t size) (len := (s.input a.delta).length)
        (P := fun st => ∃ cs, DecAt t s a.delta a.target (s.input a.delta) (decoder a.flags dict) st cs) ?_ ⟨[], h0⟩
        (by simp only; omega) ht
      rintro st st' ⟨cs, hp⟩ hr
      obtain ⟨⟨cs', k1⟩, k2⟩ := hp.turn hput hr
      exact ⟨⟨cs', k1⟩, by omega, k1.off⟩
    | fail st => rw [he]; simp [endDecode]
    | last st =>
      rw [he]
      simp only [endDecode]
      split <;> simp

/-- The loop of `DecodeAndCompare` ends. -/
theorem runCompare_ends {n : Nat} {a : Args} {s : System} {r : Run} (hflag : a.flags.buffersize ≠ 0) (hname : a.delta ≠ "")
    (hne : s.input a.delta ≠ []) (h : runCompare n t a s = .ok r) (hn : (s.input a.delta).length < n) : r.status ≠ none := by
  unfold runCompare at h
  split at h
  · cases h; simp
  · rename_i dict h1
    split at h
    · cases h; simp
    · rename_i input size h2
      split at h
      · cases h; simp
      · rename_i target size2 h3
        split at h
        · cases h
        · rename_i turn ht
          injection h with h
          obtain ⟨k2, k3⟩ := openForReading_some h2
          obtain ⟨k4, _⟩ := openForReading_some h3
          have hpos : 0 < size := by
            rcases k3 with ⟨h', h⟩ | ⟨h', _, h, _⟩
            · exact absurd h' hname
            · have := List.length_pos_iff.2 hne
              omega
          subst k2; subst k4
          have h0 : CmpAt s a.delta a.target (decoder a.flags dict)
              (Stage.mk s { name := a.delta } (decoder a.flags dict, { name := a.target }) [] { name := "" }) [] :=
            ⟨rfl, rfl, rfl, Nat.zero_le _, by simp, rfl, Nat.zero_le _, rfl⟩
          cases turn with
          | next st =>
            exfalso
            refine turns_stop (turn := compareTurn t size) (len := (s.input a.delta).length)
              (P := fun st => ∃ cs, CmpAt s a.delta a.target (decoder a.flags dict) st cs) ?_ ⟨[], h0⟩
              (by simp only; omega) ht
            rintro st st' ⟨cs, hp⟩ hr
            obtain ⟨⟨cs', k1⟩, k2⟩ := hp.turn hr
            exact ⟨⟨cs', k1⟩, by omega, k1.off⟩
          | fail st => rw [← h]; simp [endCompare]
          | last st =>
            rw [← h]
            simp only [endCompare]
            split
            · simp
            · split
              · simp
              · split <;> simp

/-- On an empty file `DecodeAndCompare` never ends. -/
theorem runCompare_empty {n : Nat} {a : Args} {s : System} {dict : Bytes} {target' : InFile × Nat} (hd : openDictionary t s a.dictionary = some dict)
    (hname : a.delta ≠ "") (hdelta : s.files a.delta = some []) (ht : openForReading t s a.flags.buffersize a.target = some target')
    (hok : t.noRead a.delta = false ∧ t.noSeek a.delta = false ∧ t.damage a.delta = none) : runCompare n t a s = .ok ⟨none, s⟩ := by
  obtain ⟨k1, k2, k3⟩ := hok
  have ho : openForReading t s a.flags.buffersize a.delta = some ({ name := a.delta }, 0) := by
    simp only [openForReading, if_neg hname, k1, k2, hdelta, Bool.false_eq_true, if_false, List.length_nil]
    split
    · rfl
    · simp; omega
  obtain ⟨target, size2⟩ := target'
  simp only [runCompare, hd, ho, ht]
  have hin : s.input a.delta = [] := by simp only [System.input, if_neg hname, hdelta, Option.getD_some]
  have hturn : ∀ n, turns (compareTurn t 0) n (Stage.mk s { name := a.delta } (decoder a.flags dict, target) [] { name := "" }) =
      .ok (.next (Stage.mk s { name := a.delta } (decoder a.flags dict, target) [] { name := "" })) := by
    intro n
    induction n with
    | zero => rfl
    | succ n ih =>
      have h1 : compareTurn t 0 (Stage.mk s { name := a.delta } (decoder a.flags dict, target) [] { name := "" }) =
          .ok (.next (Stage.mk s { name := a.delta } (decoder a.flags dict, target) [] { name := "" })) := by
        simp only [compareTurn, InFile.fread, InFile.bad, k3, hin, Bool.false_eq_true, if_false, List.drop_nil, List.take_nil, if_true,
          List.length_nil, Nat.add_zero, Nat.lt_irrefl, decide_false, Bool.or_false, Stage.again]
      simp only [turns, h1, ih]
  rw [hturn]
  rfl

end

end Vcd.Cli
