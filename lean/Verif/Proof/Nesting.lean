import Verif.Proof.RfcProps

/-!
# The number of nested decoders
-/

namespace Vcd
open Spec

/-- A bound on the bytes that a decoder and its nested decoders have been fed. -/
def potential : Level → List Level → Nat
  | L, [] => L.unparsed.length
  | L, n :: ns => 7 + L.unparsed.length + potential n ns

theorem seven_le_potential (L : Level) (ns : List Level) : 7 * ns.length ≤ potential L ns := by
  induction ns generalizing L with
  | nil => simp [potential]
  | cons n ns ih =>
    have := ih n
    simp only [potential, List.length_cons]
    omega

theorem parseInt32_ok_pre {s r : Bytes} {n : Nat} (h : parseInt32 s = .ok n r) :
    ∃ pre, s = pre ++ r ∧ 1 ≤ pre.length := by
  obtain ⟨pre, h1, h2⟩ := Local.parseInt32.ok h
  refine ⟨pre, h1, ?_⟩
  have := h2 []
  rw [List.append_nil] at this
  cases pre with
  | nil =>
    have e : parseInt32 [] = .endOfData := by decide
    rw [e] at this; simp at this
  | cons a pre => simp

theorem readFileHeader_custom_pre {s r : Bytes} {v : FileHeader} {p : Nat × Nat} (h : readFileHeader s = .ok v r)
    (hv : v.caches = some p) : r.length + 7 ≤ s.length := by
  have h5 := readFileHeader_ok_len h
  unfold readFileHeader at h
  cases hm : checkMagic s with
  | none => simp [hm] at h
  | some b =>
    cases b with
    | false => simp [hm] at h
    | true =>
      simp only [hm] at h
      split at h
      · simp at h
      · split at h
        · cases h1 : parseInt32 (s.drop 5) with
          | error => simp [h1, Parsed.bind] at h
          | endOfData => simp [h1, Parsed.bind] at h
          | ok near r1 =>
            simp only [h1, Parsed.bind] at h
            cases h2 : parseInt32 r1 with
            | error => simp [h2] at h
            | endOfData => simp [h2] at h
            | ok same r2 =>
              simp only [h2] at h
              split at h
              · simp at h
              · split at h
                · simp at h
                · simp only [Parsed.ok.injEq] at h
                  obtain ⟨_, rfl⟩ := h
                  obtain ⟨p1, e1, l1⟩ := parseInt32_ok_pre h1
                  obtain ⟨p2, e2, l2⟩ := parseInt32_ok_pre h2
                  have := congrArg List.length e1
                  have := congrArg List.length e2
                  simp only [List.length_drop, List.length_append] at *
                  omega
        · simp only [Parsed.ok.injEq] at h
          rw [← h.1] at hv
          simp at hv

theorem afterCodeTableChunk_nested {L n : Level} {ns : List Level} {s text : Bytes} {L' n' : Level} {ns' : List Level} {out : Bytes}
    (h : afterCodeTableChunk L n ns s text = .ok L' (n' :: ns') out) : n' = n ∧ ns' = ns ∧ L'.unparsed = [] := by
  unfold afterCodeTableChunk at h
  dsimp only at h
  split at h
  · rw [endChunk_eq] at h
    simp only [ChunkResult.ok.injEq, List.cons.injEq] at h
    obtain ⟨rfl, ⟨rfl, rfl⟩, _⟩ := h
    exact ⟨rfl, rfl, rfl⟩
  · split at h
    · simp at h
    · split at h
      · split at h
        · simp at h
        · rw [decodeChunkWindows_eq] at h
          split at h <;> simp at h
      · simp at h

/-- A call adds at most the bytes it was given. -/
theorem chunkRun_potential {L L' : Level} {ns ns' : List Level} {data out : Bytes} (hi : ChainInv L ns)
    (h : chunkRun L ns data = .ok L' ns' out) : potential L' ns' ≤ potential L ns + data.length := by
  induction hn : chunkDepth L ns data using Nat.strongRecOn generalizing L ns data L' ns' out with
  | _ k ih =>
    subst hn
    have hok := (chunk_inv hi data).1 _ _ _ h
    have hle : L.unparsed.length ≤ potential L ns := by cases ns <;> simp [potential]; omega
    cases ns' with
    | nil =>
      obtain ⟨pre, hp⟩ := hok.suffix
      have := congrArg List.length hp
      simp only [List.length_append] at this
      simp only [potential]
      omega
    | cons n' ns' =>
      have hnode := hi.node
      rw [chunkRun_eq, chunkStep, if_neg (by rw [hnode.started]; simp)] at h
      cases hc : L.cache with
      | some c =>
        simp only [hc] at h
        cases ns with
        | nil =>
          rw [tableStep, decodeChunkWindows_eq] at h
          split at h <;> simp at h
        | cons n ns =>
          obtain ⟨_, hwait, hnest, hchain⟩ := hi
          have hlt : chunkDepth n ns (L.unparsed ++ data) < chunkDepth L (n :: ns) data := by
            simp only [chunkDepth, List.map_cons, List.sum_cons, List.length_append]
            omega
          rw [tableStep] at h
          cases hr : chunkRun n ns (L.unparsed ++ data) with
          | fault f => simp [hr] at h
          | error L2 o2 => simp [hr, failed] at h
          | ok n2 ns2 text =>
            simp only [hr] at h
            have := ih _ hlt hchain hr rfl
            obtain ⟨rfl, rfl, h3⟩ := afterCodeTableChunk_nested h
            simp only [potential, h3, List.length_nil, List.length_append] at this ⊢
            omega
      | none =>
        simp only [hc] at h
        have hns : ns = [] := by
          cases ns with
          | nil => rfl
          | cons n ns => exact absurd hc hi.2.1.cache
        subst hns
        cases hr : readFileHeader (L.unparsed ++ data) with
        | error => simp [hr, failed] at h
        | endOfData =>
          simp only [hr, endChunk_eq] at h
          simp at h
        | ok hdr rest =>
          simp only [hr] at h
          cases hcc : hdr.caches with
          | none =>
            simp only [nestedFor, hcc, tableStep] at h
            rw [decodeChunkWindows_eq] at h
            split at h <;> simp at h
          | some p =>
            have h7 := readFileHeader_custom_pre hr hcc
            have e : nestedFor hdr [] = [Level.forCodeTable] := by simp [nestedFor, hcc]
            rw [e, tableStep] at h
            have hlt : chunkDepth Level.forCodeTable [] rest < chunkDepth L [] data := by
              have : Level.forCodeTable.unparsed = [] := rfl
              simp only [chunkDepth, List.map_cons, List.sum_cons, List.map_nil, List.sum_nil, this, List.length_nil]
              simp only [List.length_append] at h7
              omega
            cases hr2 : chunkRun Level.forCodeTable [] rest with
            | fault f => simp [hr2] at h
            | error L2 o2 => simp [hr2, failed] at h
            | ok n2 ns2 text =>
              simp only [hr2] at h
              have := ih _ hlt forCodeTable_inv.2.2 hr2 rfl
              obtain ⟨rfl, rfl, h3⟩ := afterCodeTableChunk_nested h
              have hu : Level.forCodeTable.unparsed = [] := rfl
              simp only [potential, h3, hu, List.length_nil, List.length_append] at this h7 ⊢
              omega

theorem stopped_nested {d d2 : Decoder} (hs : d.top.started = false) (hn : d.nested = []) {cs : List Bytes} {rs : List DecoderReply}
    (h : d.calls (cs.map .chunk) = .ok (rs, d2)) : d2.nested = [] := by
  induction cs generalizing d rs with
  | nil =>
    simp only [List.map_nil, Decoder.calls, Except.ok.injEq, Prod.mk.injEq] at h
    rw [← h.2]; exact hn
  | cons c cs ih =>
    rw [List.map_cons] at h
    obtain ⟨r, d1, rs', h1, h2, rfl⟩ := calls_cons_ok h
    rw [chunk_stopped hs] at h1
    simp only [Except.ok.injEq, Prod.mk.injEq] at h1
    obtain ⟨_, rfl⟩ := h1
    exact ih rfl rfl h2

theorem calls_nested {d d2 : Decoder} (hd : Fed d) {cs : List Bytes} {rs : List DecoderReply}
    (h : d.calls (cs.map .chunk) = .ok (rs, d2)) :
    7 * d2.nested.length ≤ potential d.top d.nested + cs.flatten.length := by
  induction cs generalizing d rs with
  | nil =>
    simp only [List.map_nil, Decoder.calls, Except.ok.injEq, Prod.mk.injEq] at h
    rw [← h.2]
    exact Nat.le_trans (seven_le_potential _ _) (Nat.le_add_right _ _)
  | cons c cs ih =>
    rw [List.map_cons] at h
    obtain ⟨r, d1, rs', h1, h2, rfl⟩ := calls_cons_ok h
    simp only [Decoder.call, decodeChunk_eq] at h1
    cases hr : chunkRun d.top d.nested c with
    | fault f => simp [hr] at h1
    | error L o =>
      simp only [hr, Except.ok.injEq, Prod.mk.injEq] at h1
      obtain ⟨_, rfl⟩ := h1
      rw [stopped_nested ((chunk_inv hd.chain c).2.1 _ _ hr).stopped rfl h2]
      simp
    | ok L ns o =>
      simp only [hr, Except.ok.injEq, Prod.mk.injEq] at h1
      obtain ⟨_, rfl⟩ := h1
      have h3 := chunkRun_potential hd.chain hr
      have := ih (hd.next hr) h2
      change _ ≤ potential L ns + _ at this
      simp only [List.flatten_cons, List.length_append]
      omega

theorem singles_append (a b : Bytes) : singles (a ++ b) = singles a ++ singles b := by simp [singles]

theorem calls_feed_true {d e : Decoder} {cs : List Bytes} {rs : List DecoderReply}
    (h : d.calls (cs.map .chunk) = .ok (rs, e)) (hr : ∀ r ∈ rs, r.ret = true) : d.feed cs = some (allOut rs, e) := by
  induction cs generalizing d rs with
  | nil =>
    simp only [List.map_nil, Decoder.calls, Except.ok.injEq, Prod.mk.injEq] at h
    rw [← h.1, ← h.2]; rfl
  | cons a cs ih =>
    rw [List.map_cons] at h
    obtain ⟨r, d1, rs', h1, h2, rfl⟩ := calls_cons_ok h
    simp only [Decoder.call, decodeChunk_eq] at h1
    cases hx : chunkRun d.top d.nested a with
    | fault f => simp [hx] at h1
    | error L o =>
      simp only [hx, Except.ok.injEq, Prod.mk.injEq] at h1
      have := hr r (by simp)
      rw [← h1.1] at this
      simp at this
    | ok L ns o =>
      simp only [hx, Except.ok.injEq, Prod.mk.injEq] at h1
      obtain ⟨rfl, rfl⟩ := h1
      rw [feed_cons_of hx (ih h2 (fun r hm => hr r (by simp [hm])))]
      simp [allOut]

/-! ### Grammars that allow more -/

/-- `b` allows what `a` allows. -/
structure Spec.Tolerance.Le (a b : Tolerance) : Prop where
  dangling : a.dangling = true → b.dangling = true
  excess : a.excess = true → b.excess = true
  empty : a.empty = true → b.empty = true
  trailing : a.trailing = true → b.trailing = true
  manyNear : a.manyNear = true → b.manyNear = true
  tables : a.tables = .none ∨ a.tables = b.tables

variable {a b : Tolerance}

theorem Spec.Program.mono (h : a.Le b) {c : Coding} {hist : List Nat} {here : Nat} {items : List Item} {ops : List Op}
    (hp : Program c a hist here items ops) : Program c b hist here items ops := by
  induction hp with
  | nil => exact .nil
  | cons h1 h2 _ ih => exact .cons h1 h2 ih
  | dangling h1 h2 h3 => exact .dangling (h.dangling h1) h2 h3

theorem Spec.WindowCode.mono (h : a.Le b) {c : Coding} {ext : Bool} {s : Settings} {dict prev w T : Bytes}
    (hw : WindowCode c ext a s dict prev w T) : WindowCode c ext b s dict prev w T := by
  cases hw with
  | mk h1 h2 h3 h4 h5 h6 h7 h8 h9 h10 h11 h12 h13 h14 h15 h16 h17 =>
    exact .mk h1 (h2.mono h) (h3.imp_left h.trailing) h4 h5 h6 h7 (h8.imp_right fun ⟨x, y⟩ => ⟨h.excess x, y⟩) h9 h10 h11 h12 h13
      h14 h15 (h16.imp_left h.manyNear) h17

theorem Spec.Windows.mono (h : a.Le b) {c : Coding} {ext : Bool} {s : Settings} {dict prev ws T : Bytes}
    (hw : Windows c ext a s dict prev ws T) : Windows c ext b s dict prev ws T := by
  induction hw with
  | nil => exact .nil
  | cons h1 _ ih => exact .cons (h1.mono h) ih

theorem Spec.FileHeaderCode.mono (h : a.Le b) {hdr : Bytes} {ext : Bool} {c : Coding} {left : CodeTable}
    (hh : FileHeaderCode a hdr ext c left) : FileHeaderCode b hdr ext c left := by
  induction hh with
  | plain h1 h2 => exact .plain h1 h2
  | rfc h1 h2 h3 h4 _ h6 h7 h8 ih =>
    refine .rfc ?_ h2 h3 h4 ih (h6.mono h) h7 h8
    rcases h.tables with k | k
    · rw [h1] at k; simp at k
    · rw [← k, h1]
  | library h1 h2 h3 h4 h5 h6 h7 _ h9 h10 h11 h12 h13 ih =>
    refine .library ?_ h2 h3 h4 h5 h6 h7 ih (h9.mono h) h10 (h11.mono h) h12 h13
    rcases h.tables with k | k
    · rw [h1] at k; simp at k
    · rw [← k, h1]

theorem Spec.FileCode.mono (h : a.Le b) {s : Settings} {dict delta T : Bytes} {left : CodeTable}
    (hf : FileCode a s dict delta T left) : FileCode b s dict delta T left := by
  cases hf with
  | mk h1 h2 => exact .mk (h1.mono h) (h2.mono h)
  | empty h1 => exact .empty (h.empty h1)

end Vcd
