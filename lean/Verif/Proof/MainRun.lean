import Verif.Proof.Main
import Verif.Spec.Main

/-! Lemmas about whole runs of the command. -/

namespace Vcd.Cli
open Spec

section
variable {t : Trouble} {base : System}

/-- The files in a loop: only the output is not as it was. -/
def SysAt (t : Trouble) (base : System) (o : String) {σ : Type} (st : Stage σ) : Prop :=
  st.out.name = o ∧ st.sys = base.put o (st.out.disk t)

theorem writeOutput_at {o : String} {sys sys' : System} {f out : OutFile} (h1 : f.name = o) (h2 : sys = base.put o (f.disk t))
    {data : Bytes} {ok : Bool} (hw : writeOutput t sys f data = (sys', out, ok)) :
    out.name = o ∧ sys' = base.put o (out.disk t) := by
  obtain ⟨w1, w2, _⟩ := writeOutput_spec (by rw [h2, h1]) hw
  rw [h1] at w2
  rw [w2] at w1
  exact ⟨w2, w1⟩

theorem again_sat {σ : Type} {P Q : Stage σ → Prop} {st : Stage σ} (h : P st) : st.again.Sat P Q := by
  rcases again_stage st with ⟨e1, e2⟩ | ⟨_, e2⟩
  · rw [e2]; exact ⟨h, e1⟩
  · rw [e2]; exact h

theorem decodeTurn_at {o : String} {size : Nat} {st : Stage Decoder} {r : Turn Decoder} (h : SysAt t base o st)
    (hr : decodeTurn t size st = .ok r) : r.Sat (SysAt t base o) (SysAt t base o) := by
  unfold decodeTurn at hr
  split at hr
  · cases hr; exact h
  · simp only at hr
    split at hr
    · cases hr; exact again_sat h
    · split at hr
      · cases hr
      · split at hr
        · cases hr; exact h
        · rename_i r _ _ _
          have := writeOutput_at h.1 h.2 (show writeOutput t st.sys st.out r.out = (_, _, _) from rfl)
          split at hr
          · cases hr; exact this
          · cases hr; exact again_sat this

theorem encodeTurn_at {o : String} {size : Nat} {st : Stage Encoder} {r : Turn Encoder} (h : SysAt t base o st)
    (hr : encodeTurn t size st = .ok r) : r.Sat (SysAt t base o) (SysAt t base o) := by
  unfold encodeTurn at hr
  split at hr
  rename_i hw
  have := writeOutput_at h.1 h.2 hw
  simp only at hr
  split at hr
  · cases hr; exact this
  · split at hr
    · cases hr; exact this
    · split at hr
      · cases hr; exact again_sat this
      · split at hr
        · cases hr
        · split at hr
          · cases hr; exact this
          · cases hr; exact again_sat this

/-- No error has been reported for the output. -/
def Fits (t : Trouble) (out : OutFile) : Prop :=
  ∀ k, t.space out.name = some k → min out.given.length (t.passed out.given.length) ≤ k

theorem fits_nil {o : String} : Fits t { name := o } := by
  intro k _
  simp

theorem writeOutput_fits {sys sys' : System} {f out : OutFile} {data : Bytes} (h : Fits t f)
    (hw : writeOutput t sys f data = (sys', out, true)) : Fits t out := by
  unfold writeOutput at hw
  split at hw
  · cases hw; exact h
  · simp only [Prod.mk.injEq, Bool.not_eq_true', OutFile.full] at hw
    obtain ⟨_, rfl, h3⟩ := hw
    intro k hk
    simp only at hk h3 ⊢
    rw [hk] at h3
    simp only [decide_eq_false_iff_not] at h3
    omega

theorem decodeTurn_fits {size : Nat} {st : Stage Decoder} {r : Turn Decoder} (h : Fits t st.out)
    (hr : decodeTurn t size st = .ok r) : r.Sat (fun st => Fits t st.out) (fun _ => True) := by
  unfold decodeTurn at hr
  split at hr
  · cases hr; trivial
  · simp only at hr
    split at hr
    · cases hr; exact again_sat h
    · split at hr
      · cases hr
      · split at hr
        · cases hr; trivial
        · rename_i r _ _ _
          cases hw : writeOutput t st.sys st.out r.out with
          | mk sys q =>
            obtain ⟨out, ok⟩ := q
            simp only [hw] at hr
            split at hr
            · cases hr; trivial
            · rename_i hok
              have hok : ok = true := by simpa using hok
              subst hok
              cases hr
              exact again_sat (writeOutput_fits h hw)

theorem encodeTurn_fits {size : Nat} {st : Stage Encoder} {r : Turn Encoder} (h : Fits t st.out)
    (hr : encodeTurn t size st = .ok r) : r.Sat (fun st => Fits t st.out) (fun _ => True) := by
  unfold encodeTurn at hr
  split at hr
  rename_i ok hw
  simp only at hr
  split at hr
  · cases hr; trivial
  · rename_i hok
    have hok : ok = true := by simpa using hok
    subst hok
    have := writeOutput_fits h hw
    split at hr
    · cases hr; trivial
    · split at hr
      · cases hr; exact again_sat this
      · split at hr
        · cases hr
        · split at hr
          · cases hr; trivial
          · cases hr; exact again_sat this

theorem closeOutput_at {o : String} {sys : System} {out : OutFile} {x : Bytes} (h1 : out.name = o) (h2 : sys = base.put o x) :
    closeOutput t sys out = base.put o ((OutFile.mk o out.given out.given.length).disk t) := by
  rw [closeOutput, h2, h1, System.put_put]

theorem openDictionary_some {s : System} {name : String} {dict : Bytes} (h : openDictionary t s name = some dict) :
    s.files name = some dict ∧ t.noRead name = false ∧ t.noSeek name = false ∧
      ∀ k, t.damage name = some k → dict.length ≤ k := by
  unfold openDictionary at h
  split at h
  · cases h
  · rename_i h1
    split at h
    · cases h
    · rename_i h2
      split at h
      · cases h
      · rename_i h3
        have key : ∀ content, s.files name = some content → content = dict → s.files name = some dict := by
          intro c h1 h2; rw [h1, h2]
        split at h
        · rename_i h4
          injection h with h
          exact ⟨key _ h2 h, by simpa using h1, by simpa using h3, by rw [h4]; simp⟩
        · rename_i k h4
          split at h
          · cases h
          · injection h with h
            refine ⟨key _ h2 h, by simpa using h1, by simpa using h3, ?_⟩
            intro k' hk
            rw [h4] at hk
            injection hk with hk
            rw [← hk, ← h]
            omega

theorem openForReading_some {s : System} {flag : Nat} {name : String} {f : InFile} {size : Nat}
    (h : openForReading t s flag name = some (f, size)) :
    f = { name } ∧ (name = "" ∧ size = flag ∨ name ≠ "" ∧ (s.files name).isSome ∧ size = min (s.input name).length flag ∧
      t.noRead name = false ∧ t.noSeek name = false) := by
  unfold openForReading at h
  split at h
  · rename_i h0
    cases h
    exact ⟨rfl, Or.inl ⟨h0, rfl⟩⟩
  · rename_i h0
    split at h
    · cases h
    · rename_i h1
      split at h
      · cases h
      · rename_i content h2
        split at h
        · cases h
        · rename_i h3
          cases h
          refine ⟨rfl, Or.inr ⟨h0, by rw [h2]; rfl, ?_, by simpa using h1, by simpa using h3⟩⟩
          simp only [System.input, if_neg h0, h2, Option.getD]
          split <;> omega

theorem openOutput_some {s sys : System} {out : OutFile} {o : String} (hs : s.stdout = []) (h : openOutput t s o = some (sys, out)) :
    sys = s.put o [] ∧ out = { name := o } ∧ (o = "" ∨ t.noWrite o = false) := by
  unfold openOutput at h
  split at h
  · rename_i ho
    cases h
    refine ⟨?_, rfl, Or.inl ho⟩
    simp only [System.put, ho, if_true, ← hs]
  · split at h
    · cases h
    · rename_i hw
      cases h
      exact ⟨rfl, rfl, Or.inr (by simpa using hw)⟩

theorem openFiles_some {s sys : System} {flag size : Nat} {d i o : String} {dict : Bytes} {f : InFile} {out : OutFile}
    (hs : s.stdout = []) (h : openFiles t s flag d i o = some (dict, f, size, sys, out)) :
    s.files d = some dict ∧ f = { name := i } ∧ (i = "" ∧ size = flag ∨ i ≠ "" ∧ size = min (s.input i).length flag) ∧
      sys = s.put o [] ∧ out = { name := o } := by
  unfold openFiles at h
  split at h
  · cases h
  · rename_i h1
    split at h
    · cases h
    · rename_i h2
      split at h
      · cases h
      · rename_i h3
        cases h
        obtain ⟨k1, _⟩ := openDictionary_some h1
        obtain ⟨k2, k3⟩ := openForReading_some h2
        obtain ⟨k4, k5, _⟩ := openOutput_some hs h3
        refine ⟨k1, k2, ?_, k4, k5⟩
        rcases k3 with k3 | ⟨a, _, b, _⟩
        · exact Or.inl k3
        · exact Or.inr ⟨a, b⟩

theorem openFiles_none {s : System} {flag : Nat} {d i o : String} (hd : d ≠ "") (h : ¬ CanStart t s d i o) :
    openFiles t s flag d i o = none := by
  cases ho : openFiles t s flag d i o with
  | none => rfl
  | some q =>
    exfalso
    apply h
    unfold openFiles at ho
    split at ho
    · cases ho
    · rename_i h1
      split at ho
      · cases ho
      · rename_i h2
        obtain ⟨k1, k2, k3, k4⟩ := openDictionary_some h1
        refine ⟨⟨by rw [k1]; rfl, k2, k3⟩, ?_, ?_, ?_⟩
        · intro k hk
          simp only [System.input, if_neg hd, k1, Option.getD]
          exact k4 k hk
        · rcases (openForReading_some h2).2 with ⟨h, _⟩ | ⟨_, h3, _, h4, h5⟩
          · exact Or.inl h
          · exact Or.inr ⟨h3, h4, h5⟩
        · by_cases he : o = ""
          · exact Or.inl he
          · right
            simp only [openOutput, if_neg he] at ho
            cases hw : t.noWrite o with
            | false => rfl
            | true => rw [hw] at ho; simp at ho

theorem disk_nil {o : String} : (OutFile.mk o [] 0).disk t = [] := by
  unfold OutFile.disk
  split <;> simp

/-- The runs of `Encode`. -/
theorem runEncode_cases {n : Nat} {a : Args} {s : System} {r : Run} (hs : s.stdout = []) (h : runEncode n t a s = .ok r) :
    r = ⟨some 1, s⟩ ∨ ∃ dict size, s.files a.dictionary = some dict ∧
      (a.target = "" ∧ size = a.flags.buffersize ∨ a.target ≠ "" ∧ size = min (s.input a.target).length a.flags.buffersize) ∧
      (r = ⟨some 1, s.put a.delta []⟩ ∨ ∃ engine rep coder turn,
        Engine.init dict = .ok (some engine) ∧
        (Encoder.new engine a.flags.format a.flags.targetMatches).call .start = .ok (rep, coder) ∧ rep.ret = true ∧
        turns (encodeTurn t size) n (Stage.mk (s.put a.delta []) { name := a.target } coder rep.out { name := a.delta }) = .ok turn ∧
        endEncode t turn = .ok r) := by
  unfold runEncode at h
  split at h
  · cases h; exact Or.inl rfl
  · rename_i ho
    obtain ⟨h1, h2, h3, h4, h5⟩ := openFiles_some hs ho
    right
    refine ⟨_, _, h1, h3, ?_⟩
    have hclose : closeOutput t (s.put a.delta []) { name := a.delta } = s.put a.delta [] := by
      rw [closeOutput_at (base := s) (o := a.delta) rfl rfl]; exact congrArg (s.put a.delta) disk_nil
    rw [h4, h5, h2] at h
    split at h
    · cases h
    · cases h; left; rw [hclose]
    · rename_i engine he
      split at h
      · cases h
      · rename_i rep coder hc
        split at h
        · cases h; left; rw [hclose]
        · rename_i hret
          right
          split at h
          · cases h
          · rename_i turn ht
            exact ⟨engine, rep, coder, turn, he, hc, by simpa using hret, ht, h⟩

/-- The runs of `Decode`. -/
theorem runDecode_cases {n : Nat} {a : Args} {s : System} {r : Run} (hs : s.stdout = []) (h : runDecode n t a s = .ok r) :
    r = ⟨some 1, s⟩ ∨ ∃ dict size turn, s.files a.dictionary = some dict ∧
      (a.delta = "" ∧ size = a.flags.buffersize ∨ a.delta ≠ "" ∧ size = min (s.input a.delta).length a.flags.buffersize) ∧
      turns (decodeTurn t size) n (Stage.mk (s.put a.target []) { name := a.delta } (decoder a.flags dict) [] { name := a.target }) = .ok turn ∧
      r = endDecode t turn := by
  unfold runDecode at h
  split at h
  · cases h; exact Or.inl rfl
  · rename_i ho
    obtain ⟨h1, h2, h3, h4, h5⟩ := openFiles_some hs ho
    right
    rw [h4, h5, h2] at h
    split at h
    · cases h
    · rename_i turn ht
      injection h with h
      exact ⟨_, _, turn, h1, h3, ht, h.symm⟩

theorem runEncode_files {n : Nat} {a : Args} {s : System} {r : Run} (hs : s.stdout = []) (h : runEncode n t a s = .ok r) :
    r = ⟨some 1, s⟩ ∨ ∃ x, r.sys = s.put a.delta x := by
  rcases runEncode_cases hs h with h | ⟨dict, size, _, _, h | ⟨engine, rep, coder, turn, _, _, _, ht, he⟩⟩
  · exact Or.inl h
  · exact Or.inr ⟨[], by rw [h]⟩
  · right
    have := turns_inv (fun st r hp hr => encodeTurn_at (base := s) (o := a.delta) hp hr) ⟨rfl, congrArg (s.put a.delta) disk_nil.symm⟩ ht
    cases turn with
    | next st => cases he; exact ⟨_, this.2⟩
    | fail st => cases he; exact ⟨_, closeOutput_at this.1 this.2⟩
    | last st =>
      simp only [endEncode] at he
      split at he
      · cases he
      · rename_i r _ _
        obtain ⟨w1, w2⟩ := writeOutput_at this.1.1 this.1.2
          (show writeOutput t st.sys st.out (st.pending ++ r.out) = (_, _, _) from rfl)
        cases he
        exact ⟨_, closeOutput_at w1 w2⟩

theorem runDecode_files {n : Nat} {a : Args} {s : System} {r : Run} (hs : s.stdout = []) (h : runDecode n t a s = .ok r) :
    r = ⟨some 1, s⟩ ∨ ∃ x, r.sys = s.put a.target x := by
  rcases runDecode_cases hs h with h | ⟨dict, size, turn, _, _, ht, he⟩
  · exact Or.inl h
  · right
    have := turns_inv (fun st r hp hr => decodeTurn_at (base := s) (o := a.target) hp hr) ⟨rfl, congrArg (s.put a.target) disk_nil.symm⟩ ht
    subst he
    cases turn with
    | next st => exact ⟨_, this.2⟩
    | fail st => exact ⟨_, closeOutput_at this.1 this.2⟩
    | last st => exact ⟨_, closeOutput_at this.1.1 this.1.2⟩

/-- `DecodeAndCompare` changes nothing. -/
theorem runCompare_files {n : Nat} {a : Args} {s : System} {r : Run} (h : runCompare n t a s = .ok r) : r.sys = s := by
  unfold runCompare at h
  split at h
  · cases h; rfl
  · split at h
    · cases h; rfl
    · split at h
      · cases h; rfl
      · split at h
        · cases h
        · rename_i turn _
          cases h
          cases turn with
          | next st => rfl
          | fail st => rfl
          | last st =>
            simp only [endCompare]
            split
            · rfl
            · split <;> rfl

/-- What `Decode` has put into the output file, and when its exit status is 0. -/
theorem runDecode_meaning {n : Nat} {a : Args} {s : System} {r : Run} (hs : s.stdout = []) (hin : a.delta = "" ∨ a.delta ≠ a.target)
    (h : runDecode n t a s = .ok r) :
    r = ⟨some 1, s⟩ ∨ ∃ (dict : Bytes) (out : OutFile) (cs : List Bytes) (d : Decoder), s.files a.dictionary = some dict ∧
      out.name = a.target ∧ r.sys = s.put a.target (out.disk t) ∧ cs.flatten <+: s.input a.delta ∧
      ((configured (cliSettings a.flags)).start dict).feed cs = some (out.given, d) ∧
      (r.status = some 0 → cs.flatten = s.input a.delta ∧ d.finish.1 = true ∧ out.passed = out.given.length ∧ Fits t out) := by
  rcases runDecode_cases hs h with h | ⟨dict, size, turn, h1, _, ht, he⟩
  · exact Or.inl h
  · right
    have hput : ∀ x, (s.put a.target x).input a.delta = s.input a.delta := fun x => System.put_input hin x
    have h0 : DecAt t s a.delta a.target (s.input a.delta) (decoder a.flags dict)
        (Stage.mk (s.put a.target []) { name := a.delta } (decoder a.flags dict) [] { name := a.target }) [] :=
      ⟨congrArg (s.put a.target) disk_nil.symm, rfl, rfl, rfl, Nat.zero_le _, rfl, by simp⟩
    have := turns_inv (P := fun st => ∃ cs, DecAt t s a.delta a.target (s.input a.delta) (decoder a.flags dict) st cs)
      (Q := DecFail t s a.target (s.input a.delta) (decoder a.flags dict))
      (fun st r hp hr => by
        obtain ⟨cs, hp⟩ := hp
        have := hp.turn hput hr
        cases r with
        | next st => exact this.1
        | last st => exact this
        | fail st => exact this) ⟨[], h0⟩ ht
    have hfits := turns_inv (fun st r hp hr => decodeTurn_fits hp hr) fits_nil ht
    subst he
    rw [decoder_eq] at this
    cases turn with
    | next st =>
      obtain ⟨cs, k⟩ := this
      exact ⟨dict, st.out, cs, st.coder, h1, k.oname, by rw [← k.oname]; exact k.sys, by rw [k.read]; exact List.take_prefix _ _, k.fed,
        by simp [endDecode]⟩
    | fail st =>
      obtain ⟨k1, k2, cs, d, k3, k4⟩ := this
      exact ⟨dict, OutFile.mk a.target st.out.given st.out.given.length, cs, d, h1, rfl, closeOutput_at k2 (by rw [← k2]; exact k1), k3, k4,
        by simp [endDecode]⟩
    | last st =>
      obtain ⟨⟨cs, k⟩, k'⟩ := this
      refine ⟨dict, OutFile.mk a.target st.out.given st.out.given.length, cs, st.coder, h1, rfl,
        closeOutput_at k.oname (by rw [← k.oname]; exact k.sys), by rw [k.read]; exact List.take_prefix _ _, k.fed, ?_⟩
      intro hst
      refine ⟨by rw [k.read, k.eof k', List.take_length], ?_, rfl, by rw [← k.oname]; exact hfits.1⟩
      simp only [endDecode] at hst
      cases hf : st.coder.finish.1 with
      | true => rfl
      | false => rw [hf] at hst; simp at hst

theorem start_allowed {e e' : Encoder} {r : EncoderReply} (h : e.call .start = .ok (r, e')) (hr : r.ret = true) :
    e'.allowed = true := by
  simp only [Encoder.call, Encoder.start] at h
  repeat' split at h
  all_goals (first | cases h | skip)
  all_goals (first | rfl | (simp at hr; done) | skip)
  all_goals simp_all

theorem chunk_allowed {e e' : Encoder} {r : EncoderReply} {data : Bytes} (h : e.call (.chunk data) = .ok (r, e')) :
    e'.allowed = e.allowed := by
  simp only [Encoder.call] at h
  cases hc : e.chunk data with
  | error f => rw [hc] at h; cases h
  | ok q =>
    rw [hc] at h
    cases h
    unfold Encoder.chunk at hc
    repeat' split at hc
    all_goals (first | (cases hc; done) | (cases hc; rfl) | skip)
    all_goals (simp only at hc; repeat' split at hc)
    all_goals (first | (cases hc; done) | (cases hc; rfl) | skip)

theorem chunks_allowed {e e' : Encoder} {rs : List EncoderReply} {cs : List Bytes} (h : e.calls (cs.map .chunk) = .ok (rs, e')) :
    e'.allowed = e.allowed := by
  induction cs generalizing e rs with
  | nil => cases h; rfl
  | cons c cs ih =>
    simp only [List.map_cons, Encoder.calls] at h
    split at h
    · cases h
    · rename_i hc
      split at h
      · cases h
      · rename_i hcs
        cases h
        rw [ih hcs, chunk_allowed hc]

/-- What `Encode` has put into the output file, and when its exit status is 0. -/
theorem runEncode_meaning {n : Nat} {a : Args} {s : System} {r : Run} (hs : s.stdout = []) (hin : a.target = "" ∨ a.target ≠ a.delta)
    (h : runEncode n t a s = .ok r) :
    r = ⟨some 1, s⟩ ∨ ∃ (dict : Bytes) (out : OutFile) (cs : List Bytes), s.files a.dictionary = some dict ∧
      out.name = a.delta ∧ r.sys = s.put a.delta (out.disk t) ∧ cs.flatten <+: s.input a.target ∧
      (∀ x ∈ cs, x.length ≤ a.flags.buffersize) ∧
      (out.given = [] ∨ ∃ (engine : Engine) (calls : List EncoderCall) (rs : List EncoderReply) (e : Encoder),
        Engine.init dict = .ok (some engine) ∧
        (calls = [.start] ++ cs.map .chunk ∨ cs.flatten = s.input a.target ∧ calls = [.start] ++ (cs.map .chunk ++ [.finish])) ∧
        (Encoder.new engine a.flags.format a.flags.targetMatches).calls calls = .ok (rs, e) ∧
        out.given <+: rs.flatMap (·.out)) ∧
      (r.status = some 0 → cs.flatten = s.input a.target ∧ CutEvery a.flags.buffersize cs ∧ out.passed = out.given.length ∧ Fits t out ∧
        Vcd.encode dict a.flags.format a.flags.targetMatches cs = .ok (some out.given)) := by
  rcases runEncode_cases hs h with h | ⟨dict, size, h1, hsize, h | ⟨engine, rep, coder, turn, hi, hst, hret, ht, he⟩⟩
  · exact Or.inl h
  · right
    refine ⟨dict, { name := a.delta }, [], h1, rfl, ?_, List.nil_prefix, by simp, Or.inl rfl, by rw [h]; simp⟩
    rw [h]
    exact congrArg (s.put a.delta) disk_nil.symm
  · right
    have hput : ∀ x, (s.put a.delta x).input a.target = s.input a.target := fun x => System.put_input hin x
    have hle : size ≤ a.flags.buffersize := by
      rcases hsize with ⟨_, h⟩ | ⟨_, h⟩ <;> omega
    have h0 : EncAt t s a.target a.delta (s.input a.target) coder rep.out size
        (Stage.mk (s.put a.delta []) { name := a.target } coder rep.out { name := a.delta }) [] :=
      ⟨congrArg (s.put a.delta) disk_nil.symm, rfl, rfl, rfl, Nat.zero_le _, by simp, by simp, ⟨by simp, by simp⟩, by simp, [], rfl, by simp, by simp⟩
    have := turns_inv (P := fun st => ∃ cs, EncAt t s a.target a.delta (s.input a.target) coder rep.out size st cs)
      (Q := EncFail t s a.delta (s.input a.target) coder rep.out size)
      (fun st r hp hr => by
        obtain ⟨cs, hp⟩ := hp
        have := hp.turn hput hr
        cases r with
        | next st => exact this.1
        | last st => exact this
        | fail st => exact this) ⟨[], h0⟩ ht
    have hfits := turns_inv (fun st r hp hr => encodeTurn_fits hp hr) fits_nil ht
    have hcalls : ∀ {cs : List EncoderCall} {rs e}, coder.calls cs = .ok (rs, e) →
        (Encoder.new engine a.flags.format a.flags.targetMatches).calls ([.start] ++ cs) = .ok (rep :: rs, e) := by
      intro cs rs e h
      simp only [List.singleton_append, Encoder.calls, hst, h]
    cases turn with
    | next st =>
      obtain ⟨cs, k⟩ := this
      obtain ⟨rs, k1, k2, k3⟩ := k.called
      cases he
      refine ⟨dict, st.out, cs, h1, k.oname, by rw [← k.oname]; exact k.sys, by rw [k.read]; exact List.take_prefix _ _,
        fun x hx => Nat.le_trans (k.sizes x hx) hle, Or.inr ⟨engine, _, _, _, hi, Or.inl rfl, hcalls k1, ?_⟩, by simp⟩
      exact ⟨st.pending, by rw [k3]; rfl⟩
    | fail st =>
      obtain ⟨k1, k2, cs, rs, e', k3, k4, k5, k6, k7⟩ := this
      cases he
      exact ⟨dict, OutFile.mk a.delta st.out.given st.out.given.length, cs, h1, rfl,
        closeOutput_at k2 (by rw [← k2]; exact k1), k3, fun x hx => Nat.le_trans (k4 x hx) hle,
        Or.inr ⟨engine, _, _, _, hi, Or.inl rfl, hcalls k5, k7⟩, by simp⟩
    | last st =>
      obtain ⟨⟨cs, k⟩, k'⟩ := this
      obtain ⟨rs, k1, k2, k3⟩ := k.called
      simp only [endEncode] at he
      cases hf : st.coder.call .finish with
      | error f => rw [hf] at he; cases he
      | ok q =>
        obtain ⟨rf, ef⟩ := q
        rw [hf] at he
        simp only at he
        cases hw : writeOutput t st.sys st.out (st.pending ++ rf.out) with
        | mk sys p =>
          obtain ⟨out, ok⟩ := p
          rw [hw] at he
          simp only [Except.ok.injEq] at he
          obtain ⟨w1, w2, w3, w4⟩ := writeOutput_spec k.sys hw
          rw [k.oname] at w2
          have hgiven : out.given = (rep :: (rs ++ [rf])).flatMap (·.out) := by
            rw [w3, ← List.append_assoc, k3]
            simp
          have hall := hcalls (encoder_snoc k1 hf)
          subst he
          refine ⟨dict, OutFile.mk a.delta out.given out.given.length, cs, h1, rfl, closeOutput_at w2 (by rw [w1, w2]),
            by rw [k.read]; exact List.take_prefix _ _, fun x hx => Nat.le_trans (k.sizes x hx) hle,
            Or.inr ⟨engine, _, _, _, hi, Or.inr ⟨by rw [k.read, k.eof k', List.take_length], rfl⟩, hall, by rw [hgiven]; exact List.prefix_refl _⟩, ?_⟩
          intro hst0
          have hok : ok = true := by
            cases ok with
            | true => rfl
            | false => simp at hst0
          subst hok
          have hflat : cs.flatten = s.input a.target := by rw [k.read, k.eof k', List.take_length]
          refine ⟨hflat, k.cut.grow hle (by rw [hflat]; exact hsize.imp And.right And.right), rfl, by have := writeOutput_fits hfits.1 hw; rw [← w2]; exact this, ?_⟩
          have hrf : rf.ret = true := by
            have := chunks_allowed k1
            rw [start_allowed hst hret] at this
            simp only [Encoder.call, Encoder.finish, this] at hf
            cases hf
            simp only [Bool.not_true, Bool.false_eq_true, if_false]
            split <;> rfl
          simp only [Vcd.encode, hi, List.append_assoc, hall]
          rw [if_pos, ← hgiven]
          simp only [List.all_cons, List.all_append, hret, Bool.true_and, List.all_nil, hrf, Bool.and_true, List.all_eq_true]
          exact k2

theorem openDictionary_ok {s : System} {d : String} (hd : d ≠ "") (h : CanOpen t s d)
    (h4 : ∀ k, t.damage d = some k → (s.input d).length ≤ k) :
    ∃ dict, s.files d = some dict ∧ openDictionary t s d = some dict := by
  obtain ⟨h1, h2, h3⟩ := h
  cases hf : s.files d with
  | none => rw [hf] at h1; cases h1
  | some dict =>
    refine ⟨dict, rfl, ?_⟩
    simp only [openDictionary, h2, hf, h3, Bool.false_eq_true, if_false]
    split
    · rfl
    · rename_i k hk
      have := h4 k hk
      simp only [System.input, if_neg hd, hf, Option.getD] at this
      rw [if_neg (by omega)]

theorem openForReading_ok {s : System} {flag : Nat} {i : String} (h5 : i = "" ∨ CanOpen t s i) :
    ∃ size, openForReading t s flag i = some ({ name := i }, size) ∧
      (i = "" ∧ size = flag ∨ i ≠ "" ∧ size = min (s.input i).length flag) := by
  unfold openForReading
  by_cases hi : i = ""
  · rw [if_pos hi]; exact ⟨flag, rfl, Or.inl ⟨hi, rfl⟩⟩
  · rw [if_neg hi]
    obtain ⟨k1, k2, k3⟩ := h5.resolve_left hi
    rw [if_neg (by rw [k2]; simp)]
    cases hc : s.files i with
    | none => rw [hc] at k1; cases k1
    | some c =>
      simp only
      rw [if_neg (by rw [k3]; simp)]
      refine ⟨_, rfl, Or.inr ⟨hi, ?_⟩⟩
      simp only [System.input, if_neg hi, hc, Option.getD]
      split <;> omega

theorem openFiles_ok {s : System} {flag : Nat} {d i o : String} (hs : s.stdout = []) (hd : d ≠ "") (h : CanStart t s d i o) :
    ∃ dict size, s.files d = some dict ∧
      openFiles t s flag d i o = some (dict, { name := i }, size, s.put o [], { name := o }) ∧
      (i = "" ∧ size = flag ∨ i ≠ "" ∧ size = min (s.input i).length flag) := by
  obtain ⟨h1, h4, h5, h6⟩ := h
  obtain ⟨dict, hf, hdict⟩ := openDictionary_ok hd h1 h4
  have hout : openOutput t s o = some (s.put o [], { name := o }) := by
    unfold openOutput
    by_cases ho : o = ""
    · rw [if_pos ho]
      simp only [System.put, ho, if_true, ← hs]
    · rw [if_neg ho, if_neg (by rw [h6.resolve_left ho]; simp)]
  obtain ⟨size, k1, k2⟩ := openForReading_ok (flag := flag) h5
  refine ⟨dict, size, hf, ?_, k2⟩
  simp only [openFiles, hdict, k1, hout]

theorem size_pos {s : System} {flag size : Nat} {i o : String} (hflag : flag ≠ 0) (hr : RunsSmoothly t s i o)
    (h : i = "" ∧ size = flag ∨ i ≠ "" ∧ size = min (s.input i).length flag) : 0 < size := by
  rcases h with ⟨_, h⟩ | ⟨h1, h⟩
  · omega
  · have := List.length_pos_iff.2 (hr.2.2.resolve_left h1)
    omega

theorem disk_all {o : String} {g : Bytes} {out : OutFile} (ho : out.name = o) (hs : t.space o = none) (hg : out.given = g)
    (hp : out.passed = g.length) : out.disk t = g := by
  simp only [OutFile.disk, ho, hs, hp, hg, List.take_length]

/-- `Decode` comes to its end if the library can decode the input and nothing goes wrong. -/
theorem runDecode_ok {n : Nat} {a : Args} {s : System} (hs : s.stdout = []) (hd : a.dictionary ≠ "") (hflag : a.flags.buffersize ≠ 0)
    (hin : a.delta = "" ∨ a.delta ≠ a.target) (hc : CanStart t s a.dictionary a.delta a.target) (hr : RunsSmoothly t s a.delta a.target)
    {T : Bytes} (hlib : ∀ dict cs, s.files a.dictionary = some dict → cs.flatten = s.input a.delta →
      (configured (cliSettings a.flags)).decode dict cs = some T)
    (hn : (s.input a.delta).length < n) :
    runDecode n t a s = .ok ⟨some 0, s.put a.target T⟩ := by
  obtain ⟨dict, size, h1, h2, h3⟩ := openFiles_ok (flag := a.flags.buffersize) hs hd hc
  have hsize := size_pos hflag hr h3
  have hput : ∀ x, (s.put a.target x).input a.delta = s.input a.delta := fun x => System.put_input hin x
  have h0 : DecAt t s a.delta a.target (s.input a.delta) (decoder a.flags dict)
      (Stage.mk (s.put a.target []) { name := a.delta } (decoder a.flags dict) [] { name := a.target }) [] :=
    ⟨congrArg (s.put a.target) disk_nil.symm, rfl, rfl, rfl, Nat.zero_le _, rfl, by simp⟩
  have hfeed : ∀ cs : List Bytes, cs.flatten <+: s.input a.delta → (decoder a.flags dict).feed cs ≠ none := by
    intro cs hcs hnone
    obtain ⟨rest, hrest⟩ := hcs
    have := hlib dict (cs ++ [rest]) h1 (by simpa using hrest)
    rw [decoder_eq] at hnone
    simp only [Decoder.decode] at this
    cases hf : ((configured (cliSettings a.flags)).start dict).feed (cs ++ [rest]) with
    | none => rw [hf] at this; simp at this
    | some q =>
      obtain ⟨d1, o1, o2, k1, _⟩ := feed_append.1 hf
      rw [hnone] at k1
      cases k1
  obtain ⟨st, ht, k⟩ := turns_end (turn := decodeTurn t size) (n := n) (len := (s.input a.delta).length)
    (P := fun st => (∃ cs, DecAt t s a.delta a.target (s.input a.delta) (decoder a.flags dict) st cs))
    (fun st hp => by
      obtain ⟨cs, hp⟩ := hp
      obtain ⟨r, k1, k2⟩ := hp.succeeds (size := size) hput hr.1 hr.2.1 hfeed
      have k3 := hp.turn hput k1
      cases r with
      | next st' =>
        obtain ⟨⟨cs', k3⟩, k4⟩ := k3
        exact Or.inl ⟨st', k1, ⟨cs', k3⟩, by omega, k3.off⟩
      | last st' => exact Or.inr ⟨st', k1, k3.1⟩
      | fail st' => exact absurd rfl (k2 st'))
    ⟨[], h0⟩ (by simp only; omega)
  have hrun : runDecode n t a s = .ok (endDecode t (.last st)) := by
    simp only [runDecode, h2, ht]
  rw [hrun]
  have hm := turns_inv (P := fun st => ∃ cs, DecAt t s a.delta a.target (s.input a.delta) (decoder a.flags dict) st cs)
      (Q := DecFail t s a.target (s.input a.delta) (decoder a.flags dict))
      (fun st r hp hr => by
        obtain ⟨cs, hp⟩ := hp
        have := hp.turn hput hr
        cases r with
        | next st => exact this.1
        | last st => exact this
        | fail st => exact this) ⟨[], h0⟩ ht
  obtain ⟨⟨cs, k⟩, k'⟩ := hm
  have hdec := hlib dict cs h1 (by rw [k.read, k.eof k', List.take_length])
  have hfed := k.fed
  rw [decoder_eq] at hfed
  simp only [Decoder.decode, hfed] at hdec
  split at hdec
  · rename_i hfin
    simp only [Option.some.injEq] at hdec
    simp only [endDecode, hfin, if_true]
    rw [closeOutput_at k.oname (by rw [← k.oname]; exact k.sys)]
    rw [disk_all (out := OutFile.mk a.target st.out.given st.out.given.length) rfl hr.2.1 hdec (by rw [hdec])]
  · cases hdec

/-- `Encode` comes to its end if the library can encode the input and nothing goes wrong. -/
theorem runEncode_ok {n : Nat} {a : Args} {s : System} (hs : s.stdout = []) (hd : a.dictionary ≠ "") (hflag : a.flags.buffersize ≠ 0)
    (hin : a.target = "" ∨ a.target ≠ a.delta) (hc : CanStart t s a.dictionary a.target a.delta) (hr : RunsSmoothly t s a.target a.delta)
    (hlib : ∀ dict, s.files a.dictionary = some dict → ∃ engine rep coder, Engine.init dict = .ok (some engine) ∧
      (Encoder.new engine a.flags.format a.flags.targetMatches).call .start = .ok (rep, coder) ∧ rep.ret = true ∧
      ∀ cs : List Bytes, cs.flatten <+: s.input a.target → (∀ x ∈ cs, x.length ≤ min a.flags.buffersize (s.input a.target).length) →
        ∃ rs e', coder.calls (cs.map .chunk) = .ok (rs, e') ∧ ∀ r ∈ rs, r.ret = true)
    (hn : (s.input a.target).length < n) :
    ∃ r, runEncode n t a s = .ok r ∧ r.status = some 0 := by
  obtain ⟨dict, size, h1, h2, h3⟩ := openFiles_ok (flag := a.flags.buffersize) hs hd hc
  have hsize := size_pos hflag hr h3
  have hle : size ≤ a.flags.buffersize := by
    rcases h3 with ⟨_, h⟩ | ⟨_, h⟩ <;> omega
  obtain ⟨engine, rep, coder, hi, hst, hret, hlib⟩ := hlib dict h1
  have hput : ∀ x, (s.put a.delta x).input a.target = s.input a.target := fun x => System.put_input hin x
  have h0 : EncAt t s a.target a.delta (s.input a.target) coder rep.out size
      (Stage.mk (s.put a.delta []) { name := a.target } coder rep.out { name := a.delta }) [] :=
    ⟨congrArg (s.put a.delta) disk_nil.symm, rfl, rfl, rfl, Nat.zero_le _, by simp, by simp, ⟨by simp, by simp⟩, by simp, [], rfl, by simp, by simp⟩
  obtain ⟨st, ht, k⟩ := turns_end (turn := encodeTurn t size) (n := n) (len := (s.input a.target).length)
    (P := fun st => (∃ cs, EncAt t s a.target a.delta (s.input a.target) coder rep.out size st cs))
    (fun st hp => by
      obtain ⟨cs, hp⟩ := hp
      obtain ⟨r, k1, k2⟩ := hp.succeeds hput hr.1 hr.2.1 (fun cs hpre hcs => hlib cs hpre (fun x hx => by have := hcs x hx; omega))
      have k3 := hp.turn hput k1
      cases r with
      | next st' =>
        obtain ⟨⟨cs', k3⟩, k4⟩ := k3
        exact Or.inl ⟨st', k1, ⟨cs', k3⟩, by omega, k3.off⟩
      | last st' => exact Or.inr ⟨st', k1, k3.1⟩
      | fail st' => exact absurd rfl (k2 st'))
    ⟨[], h0⟩ (by simp only; omega)
  obtain ⟨cs, k⟩ := k
  cases hw : writeOutput t st.sys st.out (st.pending ++ st.coder.finish.2.1) with
  | mk sys p =>
    obtain ⟨out, ok⟩ := p
    obtain ⟨_, _, _, w4⟩ := writeOutput_spec k.sys hw
    have hok := w4 (by rw [k.oname]; exact hr.2.1)
    subst hok
    refine ⟨⟨some 0, closeOutput t sys out⟩, ?_, rfl⟩
    have hend : endEncode t (.last st) = .ok ⟨some 0, closeOutput t sys out⟩ := by
      simp only [endEncode, Encoder.call, hw, if_true]
    simp only [runEncode, h2, hi, hst, hret, Bool.true_eq_false, if_false, ht, hend]

theorem compareFile_some {s : System} {f f' : InFile} {output : Bytes} (h : compareFile t s f output = some f')
    (ho : f.offset ≤ (s.input f.name).length) :
    f'.name = f.name ∧ f'.offset = f.offset + output.length ∧ f'.offset ≤ (s.input f.name).length ∧
      (s.input f.name).take f'.offset = (s.input f.name).take f.offset ++ output := by
  unfold compareFile at h
  split at h
  · rename_i h0
    cases h
    subst h0
    exact ⟨rfl, rfl, ho, by simp⟩
  · split at h
    · cases h
    · rename_i data f2 hf
      obtain ⟨f1, f2, f3, f4, _⟩ := fread_spec hf ho
      split at h
      · cases h
      · split at h
        · rename_i he
          cases h
          subst he
          refine ⟨f2, f3, f4, ?_⟩
          rw [f3, f1, take_add]
        · cases h

theorem compareFile_ok {s : System} {f : InFile} {output : Bytes} (hd : t.damage f.name = none)
    (h : output = ((s.input f.name).drop f.offset).take output.length) : ∃ f', compareFile t s f output = some f' := by
  unfold compareFile
  split
  · exact ⟨f, rfl⟩
  · unfold InFile.fread
    simp only [InFile.bad, hd, Bool.false_eq_true, if_false]
    rw [← h, if_neg (by omega), if_pos rfl]
    exact ⟨_, rfl⟩

/-- The loop of `DecodeAndCompare` between two turns. -/
structure CmpAt (s : System) (inName tName : String) (d0 : Decoder)
    (st : Stage (Decoder × InFile)) (cs : List Bytes) : Prop where
  sys : st.sys = s
  iname : st.input.name = inName
  read : cs.flatten = (s.input inName).take st.input.offset
  off : st.input.offset ≤ (s.input inName).length
  eof : st.input.eof = true → st.input.offset = (s.input inName).length
  tname : st.coder.2.name = tName
  toff : st.coder.2.offset ≤ (s.input tName).length
  fed : d0.feed cs = some ((s.input tName).take st.coder.2.offset, st.coder.1)

/-- What a turn leads to. -/
def CmpAfter (s : System) (inName tName : String) (d0 : Decoder) (off : Nat) : Turn (Decoder × InFile) → Prop
  | .next st' => (∃ cs', CmpAt s inName tName d0 st' cs') ∧ st'.input.offset = off
  | .last st' => (∃ cs', CmpAt s inName tName d0 st' cs') ∧ st'.input.eof = true
  | .fail _ => True

theorem CmpAt.turn {s : System} {inName tName : String} {d0 : Decoder} {size : Nat} {st : Stage (Decoder × InFile)}
    {cs : List Bytes} (h : CmpAt s inName tName d0 st cs) {r : Turn (Decoder × InFile)} (hr : compareTurn t size st = .ok r) :
    CmpAfter s inName tName d0 (st.input.offset + size) r := by
  unfold compareTurn at hr
  split at hr
  · cases hr; trivial
  · rename_i data input hf
    rw [h.sys] at hf
    obtain ⟨f1, f2, f3, f4, f5, f6⟩ := fread_spec hf (by rw [h.iname]; exact h.off)
    rw [h.iname] at f1 f4 f5
    have hread : cs.flatten ++ data = (s.input inName).take input.offset := by rw [h.read, f3, f1, take_add]
    have heof : input.eof = true → input.offset = (s.input inName).length := by
      intro he
      rcases f5 he with h1 | h1
      · have := h.eof h1; omega
      · exact h1
    have key : ∀ (st' : Stage (Decoder × InFile)) cs', CmpAt s inName tName d0 st' cs' → st'.input = input → r = st'.again →
        CmpAfter s inName tName d0 (st.input.offset + size) r := by
      intro st' cs' hA hi he
      rcases again_stage st' with ⟨e1, e2⟩ | ⟨e1, e2⟩
      · rw [he, e2]; exact ⟨⟨cs', hA⟩, e1⟩
      · rw [he, e2]; exact ⟨⟨cs', hA⟩, by rw [hi] at e1 ⊢; exact f6 e1⟩
    simp only at hr
    split at hr
    · rename_i h0
      rw [h0, List.append_nil] at hread
      refine key _ cs ?_ rfl (by simpa using hr.symm)
      exact ⟨h.sys, by simp only [f2, h.iname], hread, f4, heof, h.tname, h.toff, h.fed⟩
    · split at hr
      · cases hr
      · rename_i rep d hcall
        split at hr
        · cases hr; trivial
        · rename_i hret
          split at hr
          · cases hr; trivial
          · rename_i target hcmp
            rw [h.sys] at hcmp
            obtain ⟨c1, c2, c3, c4⟩ := compareFile_some hcmp (by rw [h.tname]; exact h.toff)
            rw [h.tname] at c1 c3 c4
            refine key _ (cs ++ [data]) ?_ rfl (by simpa using hr.symm)
            refine ⟨h.sys, by simp only [f2, h.iname], by simpa using hread, f4, heof, c1, c3, ?_⟩
            simp only [c4]
            refine feed_snoc h.fed ?_
            rw [hcall]
            obtain ⟨ret, ro⟩ := rep
            cases ret
            · exact absurd rfl hret
            · rfl

/-- Without trouble, a turn of `DecodeAndCompare` succeeds if the delta stands for the target. -/
theorem CmpAt.succeeds {s : System} {inName tName : String} {d0 : Decoder} {size : Nat} {st : Stage (Decoder × InFile)}
    {cs : List Bytes} (h : CmpAt s inName tName d0 st cs) (hd : t.damage inName = none) (hd' : t.damage tName = none)
    (hlib : ∀ cs, cs.flatten <+: s.input inName → ∃ o d, d0.feed cs = some (o, d) ∧ o <+: s.input tName) :
    ∃ r, compareTurn t size st = .ok r ∧ ∀ st', r ≠ .fail st' := by
  have hagain : ∀ (st : Stage (Decoder × InFile)) st', st.again ≠ .fail st' := by
    intro st st' he
    rcases again_stage st with ⟨_, e2⟩ | ⟨_, e2⟩ <;> rw [e2] at he <;> simp at he
  unfold compareTurn
  obtain ⟨data, input, hf⟩ := fread_some (t := t) (f := st.input) (by rw [h.iname]; exact hd) st.sys size
  rw [hf]
  simp only
  rw [h.sys] at hf
  obtain ⟨f1, f2, f3, f4, f5, f6⟩ := fread_spec hf (by rw [h.iname]; exact h.off)
  rw [h.iname] at f1 f4 f5
  have hread : cs.flatten ++ data = (s.input inName).take input.offset := by rw [h.read, f3, f1, take_add]
  by_cases h0 : data = []
  · rw [if_pos h0]
    exact ⟨_, rfl, hagain _⟩
  · rw [if_neg h0]
    obtain ⟨o, d2, k1, k2⟩ := hlib (cs ++ [data]) (by
      have : (cs ++ [data]).flatten = (s.input inName).take input.offset := by simpa using hread
      rw [this]; exact List.take_prefix _ _)
    obtain ⟨d1, o1, o2, j1, j2, rfl⟩ := feed_append.1 k1
    rw [h.fed] at j1
    simp only [Option.some.injEq, Prod.mk.injEq] at j1
    obtain ⟨rfl, rfl⟩ := j1
    simp only [Decoder.feed, Decoder.call] at j2 ⊢
    cases hch : st.coder.1.decodeChunk data with
    | fault f => rw [hch] at j2; simp at j2
    | error L o => rw [hch] at j2; simp at j2
    | ok L nested o =>
      rw [hch] at j2
      simp only [Option.some.injEq, Prod.mk.injEq, List.append_nil] at j2
      obtain ⟨rfl, _⟩ := j2
      simp only [Bool.true_eq_false, if_false]
      obtain ⟨rest, hrest⟩ := k2
      have hcmp : o = ((s.input tName).drop st.coder.2.offset).take o.length := by
        have : (s.input tName).drop st.coder.2.offset = o ++ rest := by
          have e := congrArg (List.drop st.coder.2.offset) hrest
          rw [List.append_assoc, List.drop_append_of_le_length (by simp [h.toff])] at e
          rw [← e]
          simp
        rw [this]; simp
      obtain ⟨f', hc⟩ := compareFile_ok (t := t) (s := s) (f := st.coder.2) (output := o) (by rw [h.tname]; exact hd')
        (by rw [h.tname]; exact hcmp)
      rw [h.sys, hc]
      exact ⟨_, rfl, hagain _⟩

/-- `DecodeAndCompare` succeeds only if the delta stands for the target. -/
theorem runCompare_meaning {n : Nat} {a : Args} {s : System} {r : Run} (h : runCompare n t a s = .ok r) (h0 : r.status = some 0) :
    ∃ dict cs, s.files a.dictionary = some dict ∧ cs.flatten = s.input a.delta ∧
      (configured (cliSettings a.flags)).decode dict cs = some (s.input a.target) := by
  unfold runCompare at h
  split at h
  · cases h; cases h0
  · rename_i dict hdict
    split at h
    · cases h; cases h0
    · rename_i input size hi
      split at h
      · cases h; cases h0
      · rename_i target _ htg
        split at h
        · cases h
        · rename_i turn ht
          obtain ⟨i1, _⟩ := openForReading_some hi
          obtain ⟨t1, _⟩ := openForReading_some htg
          subst i1; subst t1
          have hA : CmpAt s a.delta a.target (decoder a.flags dict) (Stage.mk s { name := a.delta }
              (decoder a.flags dict, { name := a.target }) [] { name := "" }) [] :=
            ⟨rfl, rfl, rfl, Nat.zero_le _, by simp, rfl, Nat.zero_le _, rfl⟩
          have := turns_inv (P := fun st => ∃ cs, CmpAt s a.delta a.target (decoder a.flags dict) st cs) (Q := fun _ => True)
            (fun st r hp hr => by
              obtain ⟨cs, hp⟩ := hp
              have := hp.turn hr
              cases r with
              | next st => exact this.1
              | last st => exact this
              | fail st => trivial) ⟨[], hA⟩ ht
          cases turn with
          | next st => cases h; cases h0
          | fail st => cases h; cases h0
          | last st =>
            obtain ⟨⟨cs, k⟩, k'⟩ := this
            refine ⟨dict, cs, (openDictionary_some hdict).1, by rw [k.read, k.eof k', List.take_length], ?_⟩
            have hfed := k.fed
            rw [decoder_eq] at hfed
            cases h
            simp only [endCompare] at h0
            split at h0
            · cases h0
            · rename_i hfin
              split at h0
              · cases h0
              · rename_i data f hfr
                split at h0
                · rename_i hdata
                  obtain ⟨f1, _⟩ := fread_spec hfr (by rw [k.tname]; exact k.toff)
                  rw [hdata, k.tname] at f1
                  have : st.coder.2.offset = (s.input a.target).length := by
                    have := congrArg List.length f1
                    simp only [List.length_nil, List.length_take, List.length_drop] at this
                    have := k.toff
                    omega
                  simp only [Decoder.decode, hfed, this, List.take_length]
                  rw [if_pos (by simpa using hfin)]
                · cases h0

/-- `DecodeAndCompare` succeeds if the delta stands for the target and nothing goes wrong. -/
theorem runCompare_ok {n : Nat} {a : Args} {s : System} (hd : a.dictionary ≠ "") (hflag : a.flags.buffersize ≠ 0)
    (hdict : CanOpen t s a.dictionary) (hdict' : ∀ k, t.damage a.dictionary = some k → (s.input a.dictionary).length ≤ k)
    (hi : a.delta = "" ∨ CanOpen t s a.delta) (ht : a.target = "" ∨ CanOpen t s a.target)
    (hdam : t.damage a.delta = none) (hdam' : t.damage a.target = none) (hne : a.delta = "" ∨ s.input a.delta ≠ [])
    (hlib : ∀ dict cs, s.files a.dictionary = some dict → cs.flatten = s.input a.delta →
      (configured (cliSettings a.flags)).decode dict cs = some (s.input a.target))
    (hn : (s.input a.delta).length < n) :
    runCompare n t a s = .ok ⟨some 0, s⟩ := by
  obtain ⟨dict, h1, h2⟩ := openDictionary_ok hd hdict hdict'
  obtain ⟨size, h3, h4⟩ := openForReading_ok (flag := a.flags.buffersize) hi
  obtain ⟨_, h5, _⟩ := openForReading_ok (flag := a.flags.buffersize) ht
  have hsize : 0 < size := by
    rcases h4 with ⟨_, h⟩ | ⟨h1, h⟩
    · omega
    · have := List.length_pos_iff.2 (hne.resolve_left h1)
      omega
  have hA : CmpAt s a.delta a.target (decoder a.flags dict) (Stage.mk s { name := a.delta }
      (decoder a.flags dict, { name := a.target }) [] { name := "" }) [] :=
    ⟨rfl, rfl, rfl, Nat.zero_le _, by simp, rfl, Nat.zero_le _, rfl⟩
  have hfeed : ∀ cs : List Bytes, cs.flatten <+: s.input a.delta →
      ∃ o d, (decoder a.flags dict).feed cs = some (o, d) ∧ o <+: s.input a.target := by
    intro cs hcs
    obtain ⟨rest, hrest⟩ := hcs
    have := hlib dict (cs ++ [rest]) h1 (by simpa using hrest)
    rw [decoder_eq]
    simp only [Decoder.decode] at this
    cases hf : ((configured (cliSettings a.flags)).start dict).feed (cs ++ [rest]) with
    | none => rw [hf] at this; simp at this
    | some q =>
      rw [hf] at this
      simp only at this
      split at this
      · simp only [Option.some.injEq] at this
        obtain ⟨d1, o1, o2, k1, _, k3⟩ := feed_append.1 hf
        exact ⟨o1, d1, k1, o2, by rw [← this, ← k3]⟩
      · cases this
  obtain ⟨st, hturn, _⟩ := turns_end (turn := compareTurn t size) (n := n) (len := (s.input a.delta).length)
    (P := fun st => (∃ cs, CmpAt s a.delta a.target (decoder a.flags dict) st cs))
    (fun st hp => by
      obtain ⟨cs, hp⟩ := hp
      obtain ⟨r, k1, k2⟩ := hp.succeeds (size := size) hdam hdam' hfeed
      have k3 := hp.turn k1
      cases r with
      | next st' =>
        obtain ⟨⟨cs', k3⟩, k4⟩ := k3
        exact Or.inl ⟨st', k1, ⟨cs', k3⟩, by omega, k3.off⟩
      | last st' => exact Or.inr ⟨st', k1, k3.1⟩
      | fail st' => exact absurd rfl (k2 st'))
    ⟨[], hA⟩ (by simp only; omega)
  have hm := turns_inv (P := fun st => ∃ cs, CmpAt s a.delta a.target (decoder a.flags dict) st cs) (Q := fun _ => True)
    (fun st r hp hr => by
      obtain ⟨cs, hp⟩ := hp
      have := hp.turn hr
      cases r with
      | next st => exact this.1
      | last st => exact this
      | fail st => trivial) ⟨[], hA⟩ hturn
  obtain ⟨⟨cs, k⟩, k'⟩ := hm
  have hdec := hlib dict cs h1 (by rw [k.read, k.eof k', List.take_length])
  have hfed := k.fed
  rw [decoder_eq] at hfed
  simp only [Decoder.decode, hfed] at hdec
  split at hdec
  · rename_i hfin
    simp only [Option.some.injEq] at hdec
    have hend : st.coder.2.offset = (s.input a.target).length := by
      have := congrArg List.length hdec
      have := k.toff
      simp only [List.length_take] at *
      omega
    simp only [runCompare, h2, h3, h5, hturn, endCompare, hfin, Bool.true_eq_false, if_false, InFile.fread, InFile.bad, k.tname, hdam']
    rw [hend]
    simp
  · cases hdec

/-- Once a loop has ended, more turns change nothing. -/
theorem turns_mono {σ : Type} {turn : Stage σ → Except Fault (Turn σ)} {n m : Nat} {st : Stage σ} {r : Turn σ} (hnm : n ≤ m)
    (h : turns turn n st = .ok r) (hr : ∀ st', r ≠ .next st') : turns turn m st = .ok r := by
  induction n generalizing st m with
  | zero =>
    simp only [turns, Except.ok.injEq] at h
    exact absurd h.symm (hr st)
  | succ n ih =>
    cases m with
    | zero => omega
    | succ m =>
      simp only [turns] at h ⊢
      split at h
      · cases h
      · exact ih (by omega) h
      · exact h

theorem runEncode_mono {n m : Nat} {a : Args} {s : System} {r : Run} (hnm : n ≤ m) (h : runEncode n t a s = .ok r)
    (hr : r.status ≠ none) : runEncode m t a s = .ok r := by
  unfold runEncode at h ⊢
  split at h
  · exact h
  · split at h
    · cases h
    · exact h
    · split at h
      · cases h
      · split at h
        · rename_i hret
          simp only [hret, if_true]
          exact h
        · rename_i hret
          simp only [hret]
          split at h
          · cases h
          · rename_i turn ht
            rw [turns_mono hnm ht]
            · exact h
            · intro st he
              rw [he] at h
              cases h
              exact hr rfl

theorem runDecode_mono {n m : Nat} {a : Args} {s : System} {r : Run} (hnm : n ≤ m) (h : runDecode n t a s = .ok r)
    (hr : r.status ≠ none) : runDecode m t a s = .ok r := by
  unfold runDecode at h ⊢
  split at h
  · exact h
  · split at h
    · cases h
    · rename_i turn ht
      rw [turns_mono hnm ht]
      · exact h
      · intro st he
        rw [he] at h
        cases h
        exact hr rfl

theorem runCompare_mono {n m : Nat} {a : Args} {s : System} {r : Run} (hnm : n ≤ m) (h : runCompare n t a s = .ok r)
    (hr : r.status ≠ none) : runCompare m t a s = .ok r := by
  unfold runCompare at h ⊢
  split at h
  · exact h
  · split at h
    · exact h
    · split at h
      · exact h
      · split at h
        · cases h
        · rename_i turn ht
          rw [turns_mono hnm ht]
          · exact h
          · intro st he
            rw [he] at h
            cases h
            exact hr rfl

end

end Vcd.Cli
