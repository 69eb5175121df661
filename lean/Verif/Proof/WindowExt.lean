import Verif.Proof.Window

/-!
# `DecodeWindow` when more input arrives
-/

namespace Vcd
open Spec

theorem interBody_append (L : Level) (w : OpenWindow) (c : AddrCache) (s t : Bytes) :
    interBody L w c (s ++ t) = (interBody L w c s).extend (t.take (w.expected - s.length)) := by
  simp [interBody, Body.extend, List.take_append]

/-- An interleaved window: more input. -/
theorem dwb_inter_extend {L : Level} {w : OpenWindow} {c : AddrCache} {n m : Nat}
    (h : OpenInv L w c n m) (s t : Bytes) :
    (∀ f, decodeWindowBody L w c s = .fault f → decodeWindowBody L w c (s ++ t) = .fault f) ∧
    (decodeWindowBody L w c s = .error → decodeWindowBody L w c (s ++ t) = .error) ∧
    (∀ L' r, decodeWindowBody L w c s = .ok L' r →
      (decodeWindowBody L w c (s ++ t) = .ok L' (r ++ t) ∧
        (w.expected ≤ s.length ∨ t = [])) ∨
      (decodeWindowBody L w c (s ++ t) = .error ∧ s.length < w.expected ∧ r = [])) ∧
    (∀ L1 r, decodeWindowBody L w c s = .endOfData L1 r →
      ∀ w1 c1, L1.win = some w1 → L1.cache = some c1 →
      (decodeWindowBody L w c (s ++ t)).skip = (decodeWindowBody L1 w1 c1 (r ++ t)).skip ∧
      decodeWindowBody L1 w1 c1 r = .endOfData L1 r ∧
      ∀ L2 r2, decodeWindowBody L w c (s ++ t) = .ok L2 r2 → r2.length ≤ t.length) := by
  have hi := h.inter
  have hi' : (L.env w.hdr).hdr.interleaved = true := hi
  obtain ⟨e1, e2, e3, e4⟩ := bodyRun_extend hi' (t.take (w.expected - s.length))
    (interBody L w c s)
  rw [← interBody_append] at e1 e2 e3 e4
  have hrun := dwb_inter (L := L) (c := c) (s := s) hi
  have hrun' := dwb_inter (L := L) (c := c) (s := s ++ t) hi
  -- if the whole section is available, more input changes nothing
  have hfull : w.expected ≤ s.length → interBody L w c (s ++ t) = interBody L w c s := by
    intro hle
    simp [interBody, List.take_append, Nat.sub_eq_zero_of_le hle]
  refine ⟨?_, ?_, ?_, ?_⟩
  · intro f hf
    rw [hrun] at hf
    cases hr : bodyRun (L.env w.hdr) (interBody L w c s) with
    | error => simp [hr] at hf
    | fault f' =>
      rw [hrun', e3 _ hr]
      simpa [hr] using hf
    | ok b' =>
      simp only [hr] at hf
      split at hf <;> simp at hf
    | endOfData b' =>
      simp only [hr] at hf
      split at hf <;> simp at hf
  · intro hf
    rw [hrun] at hf
    cases hr : bodyRun (L.env w.hdr) (interBody L w c s) with
    | error => rw [hrun', e2 hr]
    | fault f' => simp [hr] at hf
    | ok b' =>
      simp only [hr] at hf
      split at hf
      · simp at hf
      · rename_i hne
        rw [hrun', e1 _ hr]
        simp only
        rw [if_neg]
        rintro ⟨k1, k2⟩
        apply hne
        refine ⟨k1, ?_⟩
        simp only [Body.extend, List.append_eq_nil_iff] at k2
        exact k2.1
    | endOfData b' =>
      simp only [hr] at hf
      split at hf
      · simp at hf
      · rename_i hpos
        have hle : w.expected ≤ s.length := by
          have : (s.take w.expected).length = min w.expected s.length := List.length_take
          omega
        rw [hrun', hfull hle, hr]
        simp only
        rw [List.take_append_of_le_length hle, if_neg hpos]
  · intro L' r hf
    rw [hrun] at hf
    cases hr : bodyRun (L.env w.hdr) (interBody L w c s) with
    | error => simp [hr] at hf
    | fault f' => simp [hr] at hf
    | endOfData b' =>
      simp only [hr] at hf
      split at hf <;> simp at hf
    | ok b' =>
      simp only [hr] at hf
      split at hf
      · rename_i hok
        simp only [WinResult.ok.injEq] at hf
        obtain ⟨rfl, rfl⟩ := hf
        by_cases hle : w.expected ≤ s.length
        · left
          refine ⟨?_, Or.inl hle⟩
          rw [hrun', hfull hle, hr]
          simp only
          rw [if_pos hok, List.drop_append_of_le_length hle]
        · have hnil : s.drop w.expected = [] := List.drop_eq_nil_of_le (by omega)
          cases t with
          | nil =>
            left
            refine ⟨?_, Or.inr rfl⟩
            rw [List.append_nil, List.append_nil, hrun, hr]
            simp only
            rw [if_pos hok]
          | cons x t =>
            right
            refine ⟨?_, by omega, hnil⟩
            rw [hrun', e1 _ hr]
            simp only
            rw [if_neg]
            rintro ⟨_, k2⟩
            simp only [Body.extend, List.append_eq_nil_iff] at k2
            have := congrArg List.length k2.2
            simp only [List.length_take, List.length_cons, List.length_nil] at this
            omega
      · simp at hf
  · intro L1 r hf w1 c1 hw1 hc1
    obtain ⟨e, b', rfl, hpos, hle, ⟨pre, hpre, hpe⟩, hrr, hbe, hlt, hge, hcache, ⟨by1, hby⟩, hdl, hr, hbeq,
      hrr', hskip0⟩ := (dwb_inter_inv h s).2.1 _ _ hf
    simp only [Level.suspended, Option.some.injEq] at hw1 hc1
    subst hw1 hc1
    have henv : (L.suspended w e b').env w.hdr = L.env w.hdr := rfl
    have hl : ∀ u, (interBody (L.suspended w e b') { w with expected := e, pending := b'.pending }
        b'.cache (r ++ u)) = b'.extend (u.take (e - r.length)) := by
      intro u
      have htk : r.take e = b'.inst := by
        rw [hrr]
        by_cases hx : b'.inst.length < e
        · have := hlt hx
          rw [List.drop_eq_nil_of_le (by omega), List.append_nil]
          exact List.take_of_length_le (by omega)
        · have : e = b'.inst.length := by omega
          rw [this, List.take_left']; rfl
      rw [hbeq]
      simp [interBody, Body.extend, List.take_append, htk, Level.suspended]
    have hlens : w.expected - s.length = e - r.length := by
      have := congrArg List.length hpre
      rw [List.length_append] at this
      omega
    have hruni : ∀ u, decodeWindowBody (L.suspended w e b')
        { w with expected := e, pending := b'.pending } b'.cache (r ++ u) = _ :=
      fun u => dwb_inter (L := L.suspended w e b')
        (w := { w with expected := e, pending := b'.pending }) (c := b'.cache) (s := r ++ u) hi
    simp only [hl, henv] at hruni
    have hno : ∀ L2 r2, decodeWindowBody L w c (s ++ t) = .ok L2 r2 → r2.length ≤ t.length := by
      intro L2 r2 h2
      rw [((dwb_inter_inv h (s ++ t)).1 _ _ h2).1]
      by_cases hle : w.expected ≤ s.length
      · rw [hrun', hfull hle, hr] at h2
        simp only at h2
        split at h2 <;> simp at h2
      · simp; omega
    refine ⟨?_, ?_, hno⟩
    · have hsk := e4 _ hr
      rw [hrun', hruni t, ← hlens]
      have hta : (s ++ t).take w.expected = pre ++ (r ++ t).take e := by
        have : (s ++ t) = pre ++ (r ++ t) := by rw [hpre]; simp
        rw [this, List.take_append, List.take_of_length_le (l := pre) (by omega)]
        congr 2; omega
      have hdr : ∀ k, (s ++ t).drop (pre.length + k) = (r ++ t).drop k := by
        intro k
        have : (s ++ t) = pre ++ (r ++ t) := by rw [hpre]; simp
        rw [this, List.drop_append, List.drop_eq_nil_of_le (by omega)]
        simp
      have hdx : (s ++ t).drop w.expected = (r ++ t).drop e := by
        rw [← hdr, ← hpe]; congr 1; omega
      cases hR : bodyRun (L.env w.hdr) (interBody L w c (s ++ t)) with
      | error =>
        rw [hR] at hsk
        cases hR' : bodyRun (L.env w.hdr) (b'.extend (t.take (w.expected - s.length))) <;>
          rw [hR'] at hsk <;> simp [BodyResult.skip] at hsk
      | fault f =>
        rw [hR] at hsk
        cases hR' : bodyRun (L.env w.hdr) (b'.extend (t.take (w.expected - s.length))) <;>
          rw [hR'] at hsk <;> simp [BodyResult.skip] at hsk
        rw [hsk]
      | ok b2 =>
        rw [hR] at hsk
        cases hR' : bodyRun (L.env w.hdr) (b'.extend (t.take (w.expected - s.length))) <;>
          rw [hR'] at hsk <;> simp [BodyResult.skip] at hsk
        subst hsk
        simp only
        split
        · simp only [WinResult.skip, hdx]; rfl
        · rfl
      | endOfData b2 =>
        rw [hR] at hsk
        cases hR' : bodyRun (L.env w.hdr) (b'.extend (t.take (w.expected - s.length))) with
        | ok _ => rw [hR'] at hsk; simp [BodyResult.skip] at hsk
        | error => rw [hR'] at hsk; simp [BodyResult.skip] at hsk
        | fault _ => rw [hR'] at hsk; simp [BodyResult.skip] at hsk
        | endOfData b3 =>
          rw [hR'] at hsk
          simp only [BodyResult.skip, BodyResult.endOfData.injEq] at hsk
          have henvT : (L.env w.hdr).table = L.table := rfl
          rw [henvT] at hsk
          -- facts about both suspended states
          obtain ⟨p2, hp2⟩ := ((bodyRun_inv _ (h.body (s ++ t))).2.1 _ hR).2.2.2.1
          have hz2 := ((bodyRun_inv _ (h.body (s ++ t))).2.1 _ hR).2.2.2.2.2
          have hb3inv : BodyInv (L.env w.hdr) n m (b'.extend (t.take (w.expected - s.length))) := by
            have := (bodyRun_inv _ (h.body s)).2.1 _ hr
            exact ⟨this.1.win, this.1.cache⟩
          obtain ⟨p3, hp3⟩ := ((bodyRun_inv _ hb3inv).2.1 _ hR').2.2.2.1
          have hz3 := ((bodyRun_inv _ hb3inv).2.1 _ hR').2.2.2.2.2
          have hp2' : (s ++ t).take w.expected = p2 ++ b2.inst := hp2
          have hp3' : (r ++ t).take e = p3 ++ b3.inst := by
            rw [← hp3, hlens]
            exact congrArg Body.inst (hl t)
          have l2 := congrArg List.length hp2'
          have l3 := congrArg List.length hp3'
          have lt := congrArg List.length hta
          rw [List.length_append] at l2 l3 lt
          have le2 := List.length_take_le w.expected (s ++ t)
          have le3 := List.length_take_le e (r ++ t)
          have s2 : ((s ++ t).take w.expected).length - b2.inst.length = p2.length := by omega
          have s3 : ((r ++ t).take e).length - b3.inst.length = p3.length := by omega
          have hf2 := Body.skip_fields L.table b2
          have hf3 := Body.skip_fields L.table b3
          have hpend : b2.pending = b3.pending := by rw [← hf2.1, ← hf3.1, hsk]
          have hc23 : b2.cache = b3.cache := by rw [← hf2.2.1, ← hf3.2.1, hsk]
          have hd23 : b2.decoded = b3.decoded := by rw [← hf2.2.2, ← hf3.2.2, hsk]
          have hempty : b2.inst = [] ↔ b3.inst = [] := by
            have hik := congrArg Body.inst hsk
            unfold Body.skip at hik
            by_cases hpn : b2.pending = none
            · rw [if_pos hpn, if_pos (hpend ▸ hpn)] at hik
              simp only at hik
              constructor
              · intro h2
                rw [h2] at hik
                exact hz3 (hpend ▸ hpn) hik.symm
              · intro h3
                rw [h3] at hik
                exact hz2 hpn hik
            · rw [if_neg hpn, if_neg (hpend ▸ hpn)] at hik
              rw [hik]
          have hmiss : w.expected - ((s ++ t).take w.expected).length
              = e - ((r ++ t).take e).length := by omega
          have hpos23 : w.expected - p2.length > 0 ↔ e - p3.length > 0 := by
            have a2 : w.expected - p2.length
                = (e - ((r ++ t).take e).length) + b2.inst.length := by omega
            have a3 : e - p3.length = (e - ((r ++ t).take e).length) + b3.inst.length := by omega
            rw [a2, a3]
            have := congrArg List.length (show b2.inst = b2.inst from rfl)
            constructor
            · intro hp
              by_cases h3 : b3.inst = []
              · rw [hempty.2 h3] at hp; simpa [h3] using hp
              · have := List.length_pos_iff.2 h3; omega
            · intro hp
              by_cases h2 : b2.inst = []
              · rw [hempty.1 h2] at hp; simpa [h2] using hp
              · have := List.length_pos_iff.2 h2; omega
          simp only [s2, s3]
          by_cases hpp : w.expected - p2.length > 0
          · rw [if_pos hpp, if_pos (hpos23.1 hpp)]
            simp only [WinResult.skip]
            have r2 : (s ++ t).drop p2.length = b2.inst ++ (s ++ t).drop w.expected := by
              have : s ++ t = p2 ++ (b2.inst ++ (s ++ t).drop w.expected) := by
                rw [← List.append_assoc, ← hp2', List.take_append_drop]
              conv => lhs; rw [this]
              rw [List.drop_left']; rfl
            have r3 : (r ++ t).drop p3.length = b3.inst ++ (r ++ t).drop e := by
              have : r ++ t = p3 ++ (b3.inst ++ (r ++ t).drop e) := by
                rw [← List.append_assoc, ← hp3', List.take_append_drop]
              conv => lhs; rw [this]
              rw [List.drop_left']; rfl
            have lenst : ((s ++ t).take w.expected).length = min w.expected (s ++ t).length :=
              List.length_take
            have lenrt : ((r ++ t).take e).length = min e (r ++ t).length := List.length_take
            rw [r2, r3, skipPair_suspended L w _ b2 _ (by omega)
                (fun hx => List.drop_eq_nil_of_le (by omega)),
              skipPair_suspended (L.suspended w e b') _ _ b3 _ (by omega)
                (fun hx => List.drop_eq_nil_of_le (by omega))]
            have hT : (L.suspended w e b').table = L.table := rfl
            rw [hT, hsk, hdx]
            have : w.expected - p2.length - b2.inst.length = e - p3.length - b3.inst.length := by omega
            rw [this]
            rfl
          · rw [if_neg hpp, if_neg (fun hx => hpp (hpos23.2 hx))]
    · have := hruni []
      rw [List.append_nil, List.take_nil, show b'.extend [] = b' by simp [Body.extend], hrr'] at this
      rw [this]
      have htk : r.take e = b'.inst := by
        have := congrArg Body.inst (hl [])
        simpa [interBody, Body.extend] using this
      simp only [htk, Nat.sub_self, Nat.sub_zero, List.drop_zero]
      rw [if_pos hpos]
      rfl

end Vcd
