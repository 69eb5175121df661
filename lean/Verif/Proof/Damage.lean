import Verif.Proof.SelfDelimiting
import Verif.Proof.Adler
import Verif.Spec.Damage

/-!
# Damaged windows are no windows

Nothing here is about the decoder.
-/

namespace Vcd
open Spec

/-! ## Reading the header of a window -/

/-- The fields of a window that any reading of it finds. -/
theorem Spec.WindowCode.fields {c : Coding} {ext : Bool} {tol : Tolerance} {s : Settings} {dict prev w T : Bytes}
    (h : WindowCode c ext tol s dict prev w T) (R : Reading w)
    (hck : if ext = true ∧ R.ind &&& 4 ≠ 0 then IsVarint R.cks else R.cks = []) :
    ∃ (src data inst addr : Bytes) (items : List Item) (ops : List Op) (surplus : Nat),
      SourceCode s.allowTarget dict prev R.ind R.seg src ∧ Program c tol [] src.length items ops ∧
      (tol.trailing = true ∨ Tight items ops) ∧ execOps src ops = src ++ T ∧ SectionCode ext items data inst addr ∧
      (surplus = 0 ∨ (tol.excess = true ∧ ext = true ∧ data = [] ∧ addr = [])) ∧ NumCode R.tlen T.length ∧
      NumCode R.dlen data.length ∧ NumCode R.ilen (inst.length + surplus) ∧ NumCode R.alen addr.length ∧
      ChecksumCode (ext && (R.ind &&& 4 != 0)) T R.cks ∧
      NumCode R.dl ((R.tlen ++ [R.di] ++ R.dlen ++ R.ilen ++ R.alen ++ R.cks).length +
        (data.length + (inst.length + surplus) + addr.length)) ∧ R.body = data ++ inst ++ addr := by
  obtain ⟨ind', seg', dl', tlen', di', dlen', ilen', alen', cks', body', hb, hns, hsr, q1, q2, q3, q4, q5⟩ := R
  simp only at hck ⊢
  cases h with
  | @mk ind di seg src dl tlen dlen ilen alen cks data inst addr _ items ops surplus source program tight exec
      windowLimit fileLimit sections noSurplus targetLength deltaIndicator dataLength instLength addrLength checksum
      deltaLength =>
    simp only [List.append_assoc, List.cons_append, List.nil_append, List.cons.injEq] at hb
    obtain ⟨rfl, hb⟩ := hb
    have hseg : seg = seg' ∧ dl ++ (tlen ++ di :: (dlen ++ (ilen ++ (alen ++ (cks ++ (data ++ (inst ++ addr))))))) =
        dl' ++ (tlen' ++ di' :: (dlen' ++ (ilen' ++ (alen' ++ (cks' ++ body'))))) := by
      cases source with
      | none h =>
        have := hns h
        subst this
        exact ⟨rfl, by simpa using hb⟩
      | @dict lb pb len pos h h1 h2 h3 =>
        obtain ⟨lb', pb', rfl, k1, k2⟩ := hsr (by rw [h]; decide)
        rw [List.append_assoc, List.append_assoc] at hb
        obtain ⟨rfl, hb1⟩ := h1.1.unique k1 hb
        obtain ⟨rfl, hb2⟩ := h2.1.unique k2 hb1
        exact ⟨rfl, hb2⟩
      | @target lb pb len pos h ha h1 h2 h3 =>
        obtain ⟨lb', pb', rfl, k1, k2⟩ := hsr (by rw [h]; decide)
        rw [List.append_assoc, List.append_assoc] at hb
        obtain ⟨rfl, hb1⟩ := h1.1.unique k1 hb
        obtain ⟨rfl, hb2⟩ := h2.1.unique k2 hb1
        exact ⟨rfl, hb2⟩
    obtain ⟨rfl, e0⟩ := hseg
    obtain ⟨rfl, e1⟩ := deltaLength.1.unique q1 e0
    obtain ⟨rfl, e2⟩ := targetLength.1.unique q2 e1
    simp only [List.cons.injEq] at e2
    obtain ⟨rfl, e2⟩ := e2
    obtain ⟨rfl, e3⟩ := dataLength.1.unique q3 e2
    obtain ⟨rfl, e4⟩ := instLength.1.unique q4 e3
    obtain ⟨rfl, e5⟩ := addrLength.1.unique q5 e4
    have hc : cks = cks' ∧ body' = data ++ (inst ++ addr) := by
      unfold ChecksumCode at checksum
      by_cases hx : ext = true ∧ ind &&& 4 ≠ 0
      · rw [if_pos hx] at hck
        rw [if_pos (by simp [hx])] at checksum
        obtain ⟨e, e'⟩ := checksum.1.unique hck e5
        exact ⟨e, e'.symm⟩
      · rw [if_neg hx] at hck
        rw [if_neg (by simp only [Bool.and_eq_true, bne_iff_ne, ne_eq]; exact hx)] at checksum
        subst hck checksum
        exact ⟨rfl, by simpa using e5.symm⟩
    obtain ⟨rfl, rfl⟩ := hc
    exact ⟨src, data, inst, addr, items, ops, surplus, source, program, tight, exec, sections, noSurplus, targetLength, dataLength,
      instLength, addrLength, checksum, deltaLength, by simp⟩

theorem Spec.SourceCode.segment {a : Bool} {dict prev src w : Bytes} {R : Reading w} {n : Nat}
    (h : SourceCode a dict prev R.ind R.seg src) (hn : SegmentLength R n) : src.length = n := by
  generalize hi : R.ind = ind at h
  generalize hg : R.seg = seg at h
  unfold SegmentLength at hn
  rw [hi, hg] at hn
  cases h with
  | none e =>
    rcases hn with ⟨_, rfl⟩ | ⟨h, _⟩
    · rfl
    · exact absurd e h
  | @dict lb pb len pos e h1 h2 h3 =>
    rcases hn with ⟨h, _⟩ | ⟨_, lb', pb', he, k1, k2, rfl⟩
    · rw [e] at h; exact absurd h (by decide)
    · obtain ⟨rfl, _⟩ := h1.1.unique k1 he
      rw [h1.2.1]
      simp only [List.length_take, List.length_drop]
      omega
  | @target lb pb len pos e _ h1 h2 h3 =>
    rcases hn with ⟨h, _⟩ | ⟨_, lb', pb', he, k1, k2, rfl⟩
    · rw [e] at h; exact absurd h (by decide)
    · obtain ⟨rfl, _⟩ := h1.1.unique k1 he
      rw [h1.2.1]
      simp only [List.length_take, List.length_drop]
      omega

/-- What follows for a window whose header is that of another, up to the value of the checksum. -/
theorem Spec.WindowCode.sameHeader {c : Coding} {s s' : Settings} {dict prev w w2 T T2 u cks rest : Bytes}
    (h : WindowCode c true library s dict prev w T) {R : Reading w} (hi : R.ind &&& 4 ≠ 0) (hv : IsVarint R.cks)
    (h2 : WindowCode c true library s' dict prev w2 T2) (hl : cks.length = R.cks.length)
    (e : w2 ++ u = [R.ind] ++ R.seg ++ R.dl ++ R.tlen ++ [R.di] ++ R.dlen ++ R.ilen ++ R.alen ++ cks ++ rest) :
    IsVarint cks ∧ varintValue cks = adlerOf T2 ∧ T2.length = T.length ∧
    ∃ (src data inst addr data2 inst2 addr2 : Bytes) (items items2 : List Item) (ops ops2 : List Op) (surplus surplus2 : Nat),
      SourceCode s.allowTarget dict prev R.ind R.seg src ∧ R.body = data ++ inst ++ addr ∧ data2 ++ inst2 ++ addr2 ++ u = rest ∧
      Program c library [] src.length items ops ∧ Program c library [] src.length items2 ops2 ∧
      Tight items ops ∧ Tight items2 ops2 ∧ execOps src ops = src ++ T ∧ execOps src ops2 = src ++ T2 ∧
      SectionCode true items data inst addr ∧ SectionCode true items2 data2 inst2 addr2 ∧
      data.length = data2.length ∧ inst.length + surplus = inst2.length + surplus2 ∧ addr.length = addr2.length ∧
      varintValue R.dlen = data.length ∧ varintValue R.ilen = inst.length + surplus ∧ varintValue R.alen = addr.length ∧
      (surplus = 0 ∨ data = [] ∧ addr = []) ∧ (surplus2 = 0 ∨ data2 = [] ∧ addr2 = []) ∧
      varintValue R.tlen = T.length ∧ varintValue R.cks = adlerOf T := by
  obtain ⟨src, data, inst, addr, items, ops, surplus, f1, f2, f3, f4, f5, f6, f7, f8, f9, f10, f11, f12, f13⟩ :=
    h.fields R (by rw [if_pos ⟨rfl, hi⟩]; exact hv)
  cases h2 with
  | @mk ind' di' seg' src' dl' tlen' dlen' ilen' alen' cks' data' inst' addr' _ items' ops' surplus' source' program' tight' exec'
      windowLimit' fileLimit' sections' noSurplus' targetLength' deltaIndicator' dataLength' instLength' addrLength' checksum'
      deltaLength' copies' caches' =>
    simp only [List.append_assoc, List.cons_append, List.nil_append, List.cons.injEq] at e
    obtain ⟨rfl, e⟩ := e
    obtain ⟨rfl, e, hsl, hsrc⟩ := source'.unique f1 e
    have hsrc := hsrc rfl rfl
    subst hsrc
    obtain ⟨hx1, hdl, e⟩ := deltaLength'.unique f12 e
    obtain ⟨hx2, hT, e2⟩ := targetLength'.unique f7 e
    simp only [List.cons.injEq] at e2
    obtain ⟨hx3, e3⟩ := e2
    obtain ⟨hx4, hd, e4⟩ := dataLength'.unique f8 e3
    obtain ⟨hx5, hii, e5⟩ := instLength'.unique f9 e4
    obtain ⟨hx6, ha, e6⟩ := addrLength'.unique f10 e5
    have hb : (true && (R.ind &&& 4 != 0)) = true := by simp [hi]
    rw [hb] at checksum' f11
    simp only [ChecksumCode, if_true] at checksum' f11
    have hcl : cks'.length = cks.length := by
      simp only [List.length_append, hx2, hx4, hx5, hx6, List.length_cons, List.length_nil] at hdl
      omega
    obtain ⟨rfl, e7⟩ := List.append_inj e6 hcl
    refine ⟨checksum'.1, checksum'.2, hT, src', data, inst, addr, data', inst', addr', items, items', ops, ops', surplus, surplus',
      f1, f13, by simpa [List.append_assoc] using e7, f2, program', f3.resolve_left (by simp [library]),
      tight'.resolve_left (by simp [library]), f4, exec', f5, sections', hd.symm, hii.symm, ha.symm, f8.2.1, f9.2.1, f10.2.1,
      ?_, ?_, f7.2.1, f11.2⟩
    · exact f6.imp id (fun h => h.2.2)
    · exact noSurplus'.imp id (fun h => h.2.2)

/-- Sections and items determine each other, and what follows in the stream. -/
theorem sections_unique {c : Coding} {n : Nat} {data inst addr data2 inst2 addr2 u r : Bytes} {items items2 : List Item}
    {ops ops2 : List Op} {surplus surplus2 : Nat}
    (p1 : Program c library [] n items ops) (p2 : Program c library [] n items2 ops2) (t1 : Tight items ops) (t2 : Tight items2 ops2)
    (s1 : SectionCode true items data inst addr) (s2 : SectionCode true items2 data2 inst2 addr2) (hs : sizes ops = sizes ops2)
    (hd : data.length = data2.length) (hi : inst.length + surplus = inst2.length + surplus2) (ha : addr.length = addr2.length)
    (n1 : surplus = 0 ∨ data = [] ∧ addr = []) (n2 : surplus2 = 0 ∨ data2 = [] ∧ addr2 = [])
    (e : data ++ inst ++ addr ++ r = data2 ++ inst2 ++ addr2 ++ u) : items = items2 ∧ ops = ops2 := by
  have hil : (True ∧ data = [] ∧ addr = []) ↔ (True ∧ data2 = [] ∧ addr2 = []) := by
    rw [← List.length_eq_zero_iff, ← List.length_eq_zero_iff (l := addr), hd, ha, List.length_eq_zero_iff, List.length_eq_zero_iff]
  have b1 := streams_sections s1
  have b2 := streams_sections s2
  simp only [true_and] at hil b1 b2
  rw [decide_eq_decide.2 hil] at b1
  by_cases hx : data = [] ∧ addr = []
  · obtain ⟨rfl, rfl⟩ := hx
    obtain ⟨rfl, rfl⟩ := hil.1 ⟨rfl, rfl⟩
    simp only [List.nil_append, List.append_nil] at e
    have b1 := b1 r
    have b2 := b2 u
    rw [e] at b1
    obtain ⟨h1, h2, _⟩ := Program.unique p1 p2 t1 t2 hs b1 b2
    exact ⟨h1, h2⟩
  · have h1 : surplus = 0 := n1.resolve_right hx
    have h2 : surplus2 = 0 := n2.resolve_right (fun h => hx (hil.2 h))
    subst h1 h2
    simp only [List.append_assoc] at e
    obtain ⟨rfl, e10⟩ := List.append_inj e hd
    obtain ⟨rfl, e11⟩ := List.append_inj e10 (by omega)
    obtain ⟨rfl, rfl⟩ := List.append_inj e11 ha
    obtain ⟨h1, h2, _⟩ := Program.unique p1 p2 t1 t2 hs (b1 []) (b2 [])
    exact ⟨h1, h2⟩

/-! ## Another checksum -/

theorem varint_inj {a b : Bytes} (ha : IsVarint a) (hb : IsVarint b) (hl : a.length = b.length)
    (hv : varintValue a = varintValue b) : a = b := by
  obtain ⟨f, l, rfl, hf, hl1⟩ := ha
  obtain ⟨g, m, rfl, hg, hl2⟩ := hb
  have hb : ∀ x y : UInt8, digit x = digit y → (continues x ↔ continues y) → x = y := by
    intro x y h1 h2
    simp only [digit, continues] at h1 h2
    have := x.toNat_lt
    have := y.toNat_lt
    apply UInt8.toNat_inj.1
    omega
  have hd : ∀ q a b a' b' : Nat, a < q → b < q → a' * q + a = b' * q + b → a' = b' ∧ a = b := by
    intro q a b a' b' h1 h2 h
    have k1 : (a' * q + a) / q = a' := by
      rw [Nat.mul_comm, Nat.mul_add_div (by omega), Nat.div_eq_of_lt h1, Nat.add_zero]
    have k2 : (b' * q + b) / q = b' := by
      rw [Nat.mul_comm, Nat.mul_add_div (by omega), Nat.div_eq_of_lt h2, Nat.add_zero]
    have : a' = b' := by rw [← k1, ← k2, h]
    subst this
    exact ⟨rfl, by omega⟩
  induction f generalizing g with
  | nil =>
    cases g with
    | nil =>
      simp only [List.nil_append, varintValue_cons, varintValue_nil, List.length_nil, Nat.pow_zero, Nat.mul_one, Nat.add_zero] at hv ⊢
      rw [hb l m hv ⟨fun h => absurd h hl1, fun h => absurd h hl2⟩]
    | cons y g => simp at hl
  | cons x f ih =>
    cases g with
    | nil => simp at hl
    | cons y g =>
      simp only [List.cons_append, List.length_cons, Nat.add_right_cancel_iff] at hl hv ⊢
      rw [varintValue_cons, varintValue_cons, hl] at hv
      obtain ⟨h1, h2⟩ := hd _ _ _ _ _ (by rw [← hl]; exact varintValue_lt _) (varintValue_lt _) hv
      rw [hb x y h1 ⟨fun _ => hg y (by simp), fun _ => hf x (by simp)⟩,
        ih (fun b h => hf b (by simp [h])) g hl h2 (fun b h => hg b (by simp [h]))]

theorem exec_sizes {src T : Bytes} {ops : List Op} (h : execOps src ops = src ++ T) : sizes ops = T.length := by
  have := execOps_length ops src
  rw [h, List.length_append] at this
  omega

/-- A window with another checksum is no window. -/
theorem checksum_changed {c : Coding} {s s' : Settings} {dict prev w w' w2 T T2 r u : Bytes}
    (h : WindowCode c true library s dict prev w T) (hd : ChecksumChanged w w')
    (h2 : WindowCode c true library s' dict prev w2 T2) (e : w2 ++ r = w' ++ u) : False := by
  obtain ⟨R, cks, hi, hv, hl, hne, rfl⟩ := hd
  obtain ⟨hv2, hval, hT, src, data, inst, addr, data2, inst2, addr2, items, items2, ops, ops2, surplus, surplus2, g1, g2, g3, g4, g5, g6,
    g7, g8, g9, g10, g11, g12, g13, g14, g15, g16, g17, g18, g19, g20, g21⟩ :=
    h.sameHeader hi hv h2 hl (rest := R.body ++ u) (by rw [e]; simp only [List.append_assoc])
  rw [g2] at g3
  obtain ⟨rfl, rfl⟩ := sections_unique g4 g5 g6 g7 g10 g11 (by rw [exec_sizes g8, exec_sizes g9, hT]) g12 g13 g14 g18 g19 g3.symm
  rw [g8] at g9
  have hTT := List.append_cancel_left g9
  rw [← hTT, ← g21] at hval
  exact hne (varint_inj hv2 hv hl hval)

/-! ## Another literal byte -/

/-- Lists of the same length whose elements are related one by one. -/
inductive Pointwise {α : Type} (r : α → α → Prop) : List α → List α → Prop
  | nil : Pointwise r [] []
  | cons {a b l m} : r a b → Pointwise r l m → Pointwise r (a :: l) (b :: m)

theorem Pointwise.split {α : Type} {r : α → α → Prop} {a b m : List α} (h : Pointwise r (a ++ b) m) :
    ∃ m1 m2, m = m1 ++ m2 ∧ Pointwise r a m1 ∧ Pointwise r b m2 := by
  induction a generalizing m with
  | nil => exact ⟨[], m, rfl, .nil, h⟩
  | cons x a ih =>
    cases h with
    | cons h1 h2 =>
      obtain ⟨m1, m2, rfl, k1, k2⟩ := ih h2
      exact ⟨_ :: m1, m2, rfl, .cons h1 k1, k2⟩

theorem Pointwise.append {α : Type} {r : α → α → Prop} {a b c d : List α} (h : Pointwise r a b) (k : Pointwise r c d) :
    Pointwise r (a ++ c) (b ++ d) := by
  induction h with
  | nil => exact k
  | cons h1 _ ih => exact .cons h1 ih

theorem Pointwise.refl {α : Type} {r : α → α → Prop} (hr : ∀ a, r a a) (l : List α) : Pointwise r l l := by
  induction l with
  | nil => exact .nil
  | cons a l ih => exact .cons (hr a) ih

theorem Pointwise.two {α : Type} {r : α → α → Prop} {a b : α} {m : List α} (h : Pointwise r [a, b] m) :
    ∃ x y, m = [x, y] ∧ r a x ∧ r b y := by
  cases h with
  | cons h1 h =>
    cases h with
    | cons h2 h =>
      cases h
      exact ⟨_, _, rfl, h1, h2⟩

/-- The same item, up to the data. -/
def ItemLike (x y : Item) : Prop := x = y ∨ ∃ b b', x = .data b ∧ y = .data b' ∧ b.length = b'.length

/-- The same instruction, up to the data. -/
def OpLike : Op → Op → Prop
  | .add b, .add b' => b.length = b'.length
  | .run _ n, .run _ n' => n = n'
  | .copy a n, .copy a' n' => a = a' ∧ n = n'
  | _, _ => False

theorem OpLike.size {o o' : Op} (h : OpLike o o') : o.size = o'.size ∧ o.addrs = o'.addrs := by
  cases o <;> cases o' <;> simp [OpLike] at h <;> simp [Op.size, Op.addrs, h]

theorem like_sizes {l m : List Op} (h : Pointwise OpLike l m) : sizes l = sizes m ∧ addrs l = addrs m := by
  induction h with
  | nil => exact ⟨rfl, rfl⟩
  | cons h1 _ ih =>
    have := h1.size
    simp only [sizes, addrs, List.map_cons, List.sum_cons, List.flatMap_cons, this] at ih ⊢
    rw [ih.1, ih.2]
    exact ⟨rfl, rfl⟩

theorem HalfCode.like {c : Coding} {hist : List Nat} {here : Nat} {h : Half} {is is' : List Item} {os : List Op}
    (hc : HalfCode c hist here h is os) (hl : Pointwise ItemLike is is') :
    ∃ os', HalfCode c hist here h is' os' ∧ Pointwise OpLike os os' := by
  have hnd : ∀ {x y : Item}, ItemLike x y → (∀ b, x ≠ .data b) → y = x := by
    rintro x y (rfl | ⟨b, b', rfl, _, _⟩) h
    · rfl
    · exact absurd rfl (h b)
  cases hc with
  | noop h0 =>
    cases hl
    exact ⟨[], .noop h0, .nil⟩
  | @add sb bs h1 h2 =>
    obtain ⟨j1, j2, rfl, l1, l2⟩ := hl.two
    have := hnd l1 (by simp)
    subst this
    have : ∃ bs', j2 = .data bs' ∧ bs.length = bs'.length := by
      rcases l2 with rfl | ⟨b, b', e, rfl, hl⟩
      · exact ⟨bs, rfl, rfl⟩
      · injection e with e; subst e; exact ⟨b', rfl, hl⟩
    obtain ⟨bs', rfl, hlen⟩ := this
    exact ⟨_, .add h1 (hlen ▸ h2), .cons hlen .nil⟩
  | @run sb n b h1 h2 =>
    obtain ⟨j1, j2, rfl, l1, l2⟩ := hl.two
    have := hnd l1 (by simp)
    subst this
    have : ∃ b', j2 = .data [b'] := by
      rcases l2 with rfl | ⟨b0, b', e, rfl, hl⟩
      · exact ⟨b, rfl⟩
      · injection e with e; subst e
        match b', hl with
        | [b'], _ => exact ⟨b', rfl⟩
    obtain ⟨b', rfl⟩ := this
    exact ⟨_, .run h1 h2, .cons rfl .nil⟩
  | @copy sb n bs a h1 h2 h3 h4 h5 =>
    obtain ⟨j1, j2, rfl, l1, l2⟩ := hl.two
    have := hnd l1 (by simp)
    subst this
    have := hnd l2 (by simp)
    subst this
    exact ⟨_, .copy h1 h2 h3 h4 h5, .cons ⟨rfl, rfl⟩ .nil⟩

theorem Program.like {c : Coding} {tol : Tolerance} {hist : List Nat} {here : Nat} {is is' : List Item} {os : List Op}
    (hp : Program c tol hist here is os) (hl : Pointwise ItemLike is is') :
    ∃ os', Program c tol hist here is' os' ∧ Pointwise OpLike os os' := by
  have hop : ∀ {op : UInt8} {y : Item}, ItemLike (.opcode op) y → y = .opcode op := by
    rintro op y (rfl | ⟨b, b', e, _⟩)
    · rfl
    · cases e
  induction hp generalizing is' with
  | nil =>
    cases hl
    exact ⟨[], .nil, .nil⟩
  | @cons hist here op i1 o1 i2 o2 items ops h1 h2 _ ih =>
    cases hl with
    | cons l1 hl =>
      have := hop l1
      subst this
      obtain ⟨m1, m3, rfl, k1, k3⟩ := hl.split
      obtain ⟨m1, m2, rfl, k1, k2⟩ := k1.split
      obtain ⟨p1, a1, b1⟩ := HalfCode.like h1 k1
      obtain ⟨p2, a2, b2⟩ := HalfCode.like h2 k2
      obtain ⟨p3, a3, b3⟩ := ih k3
      rw [(like_sizes b1).1, (like_sizes b1).2] at a2 a3
      rw [(like_sizes b2).1, (like_sizes b2).2] at a3
      exact ⟨_, .cons a1 a2 a3, (b1.append b2).append b3⟩
  | @dangling hist here op i1 o1 h1 h2 h3 =>
    cases hl with
    | cons l1 hl =>
      have := hop l1
      subst this
      obtain ⟨p1, a1, b1⟩ := HalfCode.like h3 hl
      exact ⟨p1, .dangling h1 h2 a1, b1⟩

theorem Tight.like {is is' : List Item} {os os' : List Op} (ht : Tight is os) (hi : Pointwise ItemLike is is')
    (ho : Pointwise OpLike os os') : Tight is' os' := by
  rcases ht with rfl | ⟨⟨front, bs, he⟩, front', o, rfl, hpos⟩
  · cases hi
    exact Or.inl rfl
  · right
    refine ⟨?_, ?_⟩
    · rcases he with rfl | rfl
      · obtain ⟨m1, m2, rfl, k1, k2⟩ := hi.split
        cases k2 with
        | cons k2 k3 =>
          cases k3
          rcases k2 with rfl | ⟨b, b', _, rfl, _⟩
          · exact ⟨m1, bs, Or.inl rfl⟩
          · exact ⟨m1, b', Or.inl rfl⟩
      · obtain ⟨m1, m2, rfl, k1, k2⟩ := hi.split
        cases k2 with
        | cons k2 k3 =>
          cases k3
          rcases k2 with rfl | ⟨b, b', e, _⟩
          · exact ⟨m1, bs, Or.inr rfl⟩
          · cases e
    · obtain ⟨m1, m2, rfl, k1, k2⟩ := ho.split
      cases k2 with
      | cons k2 k3 =>
        cases k3
        exact ⟨m1, _, rfl, by rw [← k2.size.1]; exact hpos⟩

/-- The data an instruction has in the delta. -/
def opData : Op → Bytes
  | .add bs => bs
  | .run b _ => [b]
  | .copy _ _ => []

theorem HalfCode.data {c : Coding} {hist : List Nat} {here : Nat} {h : Half} {is : List Item} {os : List Op}
    (hc : HalfCode c hist here h is os) : is.flatMap Item.dataBytes = os.flatMap opData := by
  cases hc <;> simp [Item.dataBytes, opData]

theorem Program.data {c : Coding} {tol : Tolerance} {hist : List Nat} {here : Nat} {is : List Item} {os : List Op}
    (hp : Program c tol hist here is os) : is.flatMap Item.dataBytes = os.flatMap opData := by
  induction hp with
  | nil => rfl
  | cons h1 h2 _ ih => simp [Item.dataBytes, HalfCode.data h1, HalfCode.data h2, ih]
  | dangling _ _ h1 => simp [Item.dataBytes, HalfCode.data h1]

/-- What an instruction produces that does not copy from the window. -/
def opText (src : Bytes) : Op → Bytes
  | .add bs => bs
  | .run b n => List.replicate n b
  | .copy a n => (src.drop a).take n

theorem exec_outside {src : Bytes} {ops : List Op} (h : ∀ o ∈ ops, FromOutside src.length o) (done : Bytes) :
    execOps (src ++ done) ops = src ++ done ++ ops.flatMap (opText src) := by
  induction ops generalizing done with
  | nil => simp [execOps]
  | cons o ops ih =>
    have : (src ++ done : Bytes) ++ opText src o = Op.apply (src ++ done) o := by
      have ho := h o (by simp)
      cases o with
      | add bs => rfl
      | run b n => rfl
      | copy a n =>
        simp only [FromOutside] at ho
        simp only [Op.apply, opText]
        rw [extend_block _ _ _ (by rw [List.length_append]; omega), List.drop_append_of_le_length (by omega),
          List.take_append_of_le_length (by rw [List.length_drop]; omega)]
    rw [List.flatMap_cons, ← List.append_assoc, this, execOps, List.foldl_cons, ← this, List.append_assoc]
    exact ih (fun o ho => h o (by simp [ho])) _

theorem like_eq {l m : List Op} (h : Pointwise OpLike l m) (hr : ∀ o ∈ l, ∀ n, ∀ b, o ≠ .run b n)
    (e : l.flatMap opData = m.flatMap opData) : l = m := by
  induction h with
  | nil => rfl
  | @cons a b l m h1 _ ih =>
    have h0 := hr a (by simp)
    cases a <;> cases b <;> simp only [OpLike] at h1
    · simp only [List.flatMap_cons, opData] at e
      obtain ⟨rfl, e'⟩ := List.append_inj e h1
      rw [ih (fun o ho => hr o (by simp [ho])) e']
    · exact absurd rfl (h0 _ _)
    · obtain ⟨rfl, rfl⟩ := h1
      simp only [List.flatMap_cons, opData, List.nil_append] at e
      rw [ih (fun o ho => hr o (by simp [ho])) e]

/-- If the data differ in one byte, so does what they produce. -/
theorem like_text {src : Bytes} {n : Nat} {l m : List Op} (h : Pointwise OpLike l m) (ho : ∀ o ∈ l, FromOutside n o) {A Z : Bytes}
    {x y : UInt8} (e1 : l.flatMap opData = A ++ x :: Z) (e2 : m.flatMap opData = A ++ y :: Z) :
    (∀ o ∈ m, FromOutside n o) ∧ ∃ P Q, l.flatMap (opText src) = P ++ x :: Q ∧ m.flatMap (opText src) = P ++ y :: Q := by
  induction h generalizing A with
  | nil => simp at e1
  | @cons a b l m h1 hp ih =>
    have h0 := ho a (by simp)
    have ho' := fun o hx => ho o (List.mem_cons_of_mem _ hx)
    cases a <;> cases b <;> simp only [OpLike] at h1
    · rename_i bs bs'
      simp only [List.flatMap_cons, opData, opText] at e1 e2 ⊢
      by_cases hle : bs.length ≤ A.length
      · obtain ⟨A', rfl⟩ : ∃ A', A = bs ++ A' := by
          refine ⟨A.drop bs.length, ?_⟩
          have := congrArg (List.take bs.length) e1
          rw [List.take_left, List.take_append_of_le_length hle] at this
          conv => lhs; rw [← List.take_append_drop bs.length A, ← this]
        rw [List.append_assoc] at e1 e2
        have e3 := List.append_cancel_left e1
        obtain ⟨rfl, e4⟩ := List.append_inj e2 h1.symm
        obtain ⟨k1, P, Q, k2, k3⟩ := ih ho' e3 e4
        refine ⟨fun o hx => ?_, bs' ++ P, Q, by rw [k2, List.append_assoc], by rw [k3, List.append_assoc]⟩
        rcases List.mem_cons.1 hx with rfl | hx
        · trivial
        · exact k1 o hx
      · obtain ⟨z, rfl⟩ : ∃ z, bs = A ++ x :: z := by
          have := congrArg (List.take bs.length) e1
          rw [List.take_left, List.take_append, List.take_of_length_le (by omega)] at this
          obtain ⟨k, hk⟩ : ∃ k, bs.length - A.length = k + 1 := ⟨bs.length - A.length - 1, by omega⟩
          rw [hk, List.take_succ_cons] at this
          exact ⟨_, this⟩
        obtain ⟨z', rfl⟩ : ∃ z, bs' = A ++ y :: z := by
          have := congrArg (List.take bs'.length) e2
          rw [List.take_left, List.take_append, List.take_of_length_le (by omega)] at this
          obtain ⟨k, hk⟩ : ∃ k, bs'.length - A.length = k + 1 := ⟨bs'.length - A.length - 1, by omega⟩
          rw [hk, List.take_succ_cons] at this
          exact ⟨_, this⟩
        simp only [List.append_assoc, List.cons_append] at e1 e2
        have e1 := List.append_cancel_left e1
        have e2 := List.append_cancel_left e2
        simp only [List.cons.injEq, true_and] at e1 e2
        rw [← e2] at e1
        obtain ⟨rfl, e3⟩ := List.append_inj e1 (by simpa using h1)
        have := like_eq hp (fun o hx n b e => by have := ho' o hx; rw [e] at this; exact this) e3
        subst this
        refine ⟨fun o hx => ?_, A, z ++ l.flatMap (opText src), by simp, by simp⟩
        rcases List.mem_cons.1 hx with rfl | hx
        · trivial
        · exact ho' o hx
    · exact absurd h0 (by simp [FromOutside])
    · obtain ⟨rfl, rfl⟩ := h1
      simp only [List.flatMap_cons, opData, List.nil_append] at e1 e2
      obtain ⟨k1, P, Q, k2, k3⟩ := ih ho' e1 e2
      refine ⟨fun o hx => ?_, opText src _ ++ P, Q, by rw [List.flatMap_cons, k2, List.append_assoc],
        by rw [List.flatMap_cons, k3, List.append_assoc]⟩
      rcases List.mem_cons.1 hx with rfl | hx
      · exact h0
      · exact k1 o hx

theorem adlerOf_one_byte (front rest : Bytes) (x y : UInt8) (hne : x ≠ y) :
    adlerOf (front ++ x :: rest) ≠ adlerOf (front ++ y :: rest) := by
  intro h
  have h1 := adlerRun_lt (0, 0) ⟨by decide, by decide⟩ (front ++ x :: rest)
  have h2 := adlerRun_lt (0, 0) ⟨by decide, by decide⟩ (front ++ y :: rest)
  have h3 := congrArg Prod.fst (adlerValue_inj h1.1 h2.1 h)
  rw [adlerRun_low _ _ (by decide), adlerRun_low _ _ (by decide)] at h3
  simp only [List.map_append, List.map_cons, List.sum_append, List.sum_cons] at h3
  have hx := x.toNat_lt
  have hy := y.toNat_lt
  apply hne
  apply UInt8.toNat_inj.1
  omega

theorem like_sections {is is' : List Item} (h : Pointwise ItemLike is is') :
    is.flatMap Item.inst = is'.flatMap Item.inst ∧ is.flatMap Item.addr = is'.flatMap Item.addr ∧
    (is.flatMap Item.dataBytes).length = (is'.flatMap Item.dataBytes).length ∧
    (is.flatMap Item.bytes).length = (is'.flatMap Item.bytes).length := by
  induction h with
  | nil => exact ⟨rfl, rfl, rfl, rfl⟩
  | cons h1 _ ih =>
    obtain ⟨k1, k2, k3, k4⟩ := ih
    rcases h1 with rfl | ⟨b, b', rfl, rfl, hl⟩
    · simp [k1, k2, k3, k4]
    · simp [k1, k2, k3, k4, Item.inst, Item.addr, Item.dataBytes, Item.bytes, hl]

/-- A window with another byte in its literal text is no window. -/
theorem literal_changed {c : Coding} {s s' : Settings} {dict prev w w' w2 T T2 r u : Bytes} {n : Nat} {ops : List Op}
    (h : WindowCode c true library s dict prev w T) (hd : LiteralChanged c n ops w w') (ho : ∀ o ∈ ops, FromOutside n o)
    (h2 : WindowCode c true library s' dict prev w2 T2) (e : w2 ++ r = w' ++ u) : False := by
  obtain ⟨R, head, a, z, data', inst', addr', x, y, front, back, hi, hw, hne, hwr, hsec, hdl, rfl⟩ := hd
  have hv : IsVarint R.cks := by
    have := hwr.checksum
    rwa [if_pos ⟨rfl, hi⟩] at this
  have hhead : head = [R.ind] ++ R.seg ++ R.dl ++ R.tlen ++ [R.di] ++ R.dlen ++ R.ilen ++ R.alen ++ R.cks :=
    List.append_cancel_right (hw.symm.trans R.bytes)
  obtain ⟨hv2, hval, hT, src, data, inst, addr, data2, inst2, addr2, items, items2, ops1, ops2, surplus, surplus2, g1, g2, g3, g4, g5, g6,
    g7, g8, g9, g10, g11, g12, g13, g14, g15, g16, g17, g18, g19, g20, g21⟩ :=
    h.sameHeader hi hv h2 rfl (rest := data' ++ inst' ++ addr' ++ u) (by rw [e, hhead]; simp only [List.append_assoc])
  have hn := g1.segment hwr.segment
  subst hn
  obtain ⟨data0, inst0, addr0, s1, s2, s3, s4, s5⟩ := hwr.sections
  -- the items of the window
  have hs0 : sizes ops = sizes ops1 := by rw [exec_sizes g8, ← g20, hwr.complete.1]
  obtain ⟨rfl, rfl⟩ := sections_unique (r := []) (u := []) (surplus := 0) hwr.program g4 hwr.complete.2 g6 s1 g10 hs0
    (by omega) (by omega) (by omega) (Or.inl rfl) g18 (by rw [← s2, ← g2])
  -- the items of the changed window
  have hlike : Pointwise ItemLike (front ++ .data (a ++ x :: z) :: back) (front ++ .data (a ++ y :: z) :: back) :=
    (Pointwise.refl (r := ItemLike) (fun _ => Or.inl rfl) front).append
      (.cons (Or.inr ⟨_, _, rfl, rfl, by simp⟩) (Pointwise.refl (r := ItemLike) (fun _ => Or.inl rfl) back))
  obtain ⟨ops', hp', hol⟩ := Program.like g4 hlike
  have ht' := Tight.like g6 hlike hol
  have hss := (like_sizes hol).1
  obtain ⟨q1, q2, q3, q4⟩ := like_sections hlike
  have hlens : data'.length = data.length ∧ inst'.length = inst.length ∧ addr'.length = addr.length := by
    have hx : ∀ v, (front ++ .data (a ++ v :: z) :: back).flatMap Item.dataBytes ≠ [] := by
      intro v; simp [Item.dataBytes]
    have hxb : ∀ v, (front ++ .data (a ++ v :: z) :: back).flatMap Item.bytes ≠ [] := by
      intro v; simp [Item.bytes]
    unfold SectionCode at g10 hsec
    have hdd : data'.length = data.length := by omega
    by_cases h1 : data = [] ∧ addr = []
    · rw [if_pos ⟨rfl, h1⟩] at g10
      have hd' : data' = [] := by rw [h1.1] at hdd; simpa using hdd
      by_cases h2 : addr' = []
      · rw [if_pos ⟨rfl, hd', h2⟩] at hsec
        rw [hd', h2, h1.1, h1.2, g10, hsec]
        exact ⟨rfl, q4.symm, rfl⟩
      · rw [if_neg (fun h => h2 h.2.2)] at hsec
        exact absurd (hsec.1.symm.trans hd') (hx y)
    · rw [if_neg (fun h => h1 h.2)] at g10
      have hd' : data' ≠ [] := by
        intro h0
        rw [h0] at hdd
        exact hx x (g10.1.symm.trans (List.length_eq_zero_iff.1 hdd.symm))
      rw [if_neg (fun h => hd' h.2.1)] at hsec
      rw [hsec.1, hsec.2.1, hsec.2.2, g10.1, g10.2.1, g10.2.2]
      exact ⟨q3.symm, by rw [q1], by rw [q2]⟩
  have hinst : inst0.length = inst.length := by
    have hil : (data0 = [] ∧ addr0 = []) ↔ (data = [] ∧ addr = []) := by
      rw [← List.length_eq_zero_iff, ← List.length_eq_zero_iff (l := addr0), ← s3, ← s5, g15, g17, List.length_eq_zero_iff,
        List.length_eq_zero_iff]
    unfold SectionCode at g10 s1
    by_cases h1 : data = [] ∧ addr = []
    · rw [if_pos ⟨rfl, h1⟩] at g10
      rw [if_pos ⟨rfl, hil.2 h1⟩] at s1
      rw [g10, s1]
    · rw [if_neg (fun h => h1 h.2)] at g10
      rw [if_neg (fun h => h1 (hil.1 h.2))] at s1
      rw [g10.2.1, s1.2.1]
  obtain ⟨_, rfl⟩ := sections_unique (surplus := 0) hp' g5 ht' g7 hsec g11
    (by rw [← hss, exec_sizes g8, exec_sizes g9, hT]) (by omega) (by omega) (by omega) (Or.inl rfl) g19 g3.symm
  -- what they produce
  have d1 := Program.data g4
  have d2 := Program.data hp'
  simp only [List.flatMap_append, List.flatMap_cons, Item.dataBytes, List.append_assoc, List.cons_append] at d1 d2
  rw [← List.append_assoc] at d1 d2
  obtain ⟨ho', P, Q, t1, t2⟩ := like_text (src := src) hol ho d1.symm d2.symm
  have x1 := exec_outside ho []
  have x2 := exec_outside ho' []
  rw [List.append_nil] at x1 x2
  rw [g8, t1] at x1
  rw [g9, t2] at x2
  have x1 := List.append_cancel_left x1
  have x2 := List.append_cancel_left x2
  rw [g21, x1, x2] at hval
  exact adlerOf_one_byte P Q x y hne hval

/-! ## Where the damaged window is -/

/-- Windows that a file begins with are windows of any way to read the file. -/
theorem Spec.Windows.after {c : Coding} {ext : Bool} {tol : Tolerance} (ht : tol.trailing = false) {s : Settings}
    {dict prev ws T r all A : Bytes} (h : Windows c ext tol s dict prev ws T) (h2 : Windows c ext tol s dict prev all A)
    (e : all = ws ++ r) : ∃ B, A = T ++ B ∧ Windows c ext tol s dict (prev ++ T) r B := by
  induction h generalizing all A with
  | nil =>
    subst e
    exact ⟨A, rfl, by simpa using h2⟩
  | @cons prev w T ws Ts h1 hws ih =>
    cases h2 with
    | nil =>
      have := h1.ne_nil
      simp at e
      exact absurd e.1 this
    | @cons _ w' T' ws' Ts' h1' hws' =>
      rw [List.append_assoc] at e
      obtain ⟨rfl, hr, _, hT⟩ := h1'.unique ht h1 e
      have := hT rfl rfl
      subst this
      obtain ⟨B, rfl, hB⟩ := ih hws' hr
      exact ⟨B, by simp, by simpa using hB⟩

/-- The windows that complete a code table. -/
theorem table_windows_unique {c : Coding} {ext : Bool} {tol : Tolerance} (ht : tol.trailing = false) {s : Settings} {N : Nat}
    {dict prev ws ws' w w' T T' U U' r r' : Bytes} (h : Windows c ext tol s dict prev ws T) (h' : Windows c ext tol s dict prev ws' T')
    (hw : WindowCode c ext tol s dict (prev ++ T) w U) (hw' : WindowCode c ext tol s dict (prev ++ T') w' U')
    (hl : (prev ++ T).length < N) (hl' : (prev ++ T').length < N) (hN : (prev ++ T ++ U).length = N) (hN' : (prev ++ T' ++ U').length = N)
    (e : ws ++ w ++ r = ws' ++ w' ++ r') : ws ++ w = ws' ++ w' ∧ r = r' ∧ T ++ U = T' ++ U' := by
  induction h generalizing ws' T' with
  | nil =>
    cases h' with
    | nil =>
      simp only [List.append_nil, List.nil_append] at *
      obtain ⟨rfl, rfl, _, hT⟩ := hw.unique ht hw' e
      rw [hT rfl rfl]
      exact ⟨rfl, rfl, rfl⟩
    | @cons _ w1 T1 ws1 Ts1 h1 h2 =>
      exfalso
      simp only [List.append_nil, List.nil_append, List.append_assoc] at *
      obtain ⟨rfl, _, hT, _⟩ := hw.unique ht h1 e
      simp only [List.length_append] at *
      omega
  | @cons prev w1 T1 ws1 Ts1 h1 h2 ih =>
    cases h' with
    | nil =>
      exfalso
      simp only [List.append_nil, List.nil_append, List.append_assoc] at *
      obtain ⟨rfl, _, hT, _⟩ := h1.unique ht hw' e
      simp only [List.length_append] at *
      omega
    | @cons _ w2 T2 ws2 Ts2 h1' h2' =>
      simp only [List.append_assoc] at *
      obtain ⟨rfl, e', _, hT⟩ := h1.unique ht h1' e
      have := hT rfl rfl
      subst this
      obtain ⟨k1, k2, k3⟩ := ih h2' (by simpa using hw) (by simpa using hw') (by simpa using hl) (by simpa using hl') (by simpa using hN)
        (by simpa using hN') (by simpa using e')
      exact ⟨by rw [k1], k2, by rw [k3]⟩

/-- File headers are self-delimiting. -/
theorem Spec.FileHeaderCode.unique {tol : Tolerance} (ht : tol.trailing = false) (hr : tol.tables ≠ .rfc) {hdr hdr' r r' : Bytes} {ext ext' : Bool}
    {c c' : Coding} {left : CodeTable} (h : FileHeaderCode tol hdr ext c left) (h' : FileHeaderCode tol hdr' ext' c' left)
    (e : hdr ++ r = hdr' ++ r') : hdr = hdr' ∧ ext = ext' ∧ c = c' ∧ r = r' := by
  induction h generalizing hdr' ext' c' r r' with
  | @plain v hi left hv hh =>
    cases h' with
    | @plain v' hi' _ hv' hh' =>
      simp only [List.cons_append, List.nil_append, List.cons.injEq, true_and] at e
      obtain ⟨rfl, rfl, rfl⟩ := e
      exact ⟨rfl, rfl, rfl, rfl⟩
    | rfc h => exact absurd h hr
    | library _ _ hh' =>
      simp only [List.cons_append, List.nil_append, List.cons.injEq, true_and, List.append_assoc] at e
      obtain ⟨rfl, rfl, _⟩ := e
      rw [hh] at hh'
      exact absurd hh' (by decide)
  | rfc h => exact absurd h hr
  | @library v hi nb sb hdr ws w T T1 near same ext c t left hl hv hh hnb hn255 hsb hs255 hin hws hTl hw hT hinst ih =>
    cases h' with
    | @plain v' hi' _ hv' hh' =>
      simp only [List.cons_append, List.nil_append, List.cons.injEq, true_and, List.append_assoc] at e
      obtain ⟨rfl, rfl, _⟩ := e
      rw [hh] at hh'
      exact absurd hh' (by decide)
    | rfc h => exact absurd h hr
    | @library v' hi' nb' sb' hdr' ws' w' T' T1' near' same' ext' c' t' _ hl' hv' hh' hnb' hn255' hsb' hs255' hin' hws' hTl' hw' hT' hinst' =>
      simp only [List.cons_append, List.nil_append, List.cons.injEq, true_and, List.append_assoc] at e
      obtain ⟨rfl, rfl, e⟩ := e
      obtain ⟨rfl, rfl, e⟩ := hnb.unique hnb' e
      obtain ⟨rfl, rfl, e⟩ := hsb.unique hsb' e
      obtain ⟨rfl, rfl, rfl, e⟩ := ih hin' e
      obtain ⟨k1, rfl, k3⟩ := table_windows_unique ht (N := 1536) hws hws' (by simpa using hw) (by simpa using hw') (by simpa using hTl)
        (by simpa using hTl') (by simpa using hT) (by simpa using hT') (by simpa using e)
      have k4 : t = t' := by
        have key : ∀ (A B : Bytes) (hA : A.length = 1536) (hB : B.length = 1536), A = B →
            Installed near same (CodeTable.ofBytes A hA) t left → Installed near same (CodeTable.ofBytes B hB) t' left → t = t' := by
          rintro A B hA hB rfl h1 h2
          rcases h1 with ⟨h1, rfl⟩ | ⟨h1, rfl⟩ <;> rcases h2 with ⟨h2, rfl⟩ | ⟨h2, rfl⟩
          · rfl
          · exact absurd h1 h2
          · exact absurd h2 h1
          · rfl
        exact key _ _ hT hT' k3 hinst hinst'
      subst k4
      exact ⟨by rw [k1], rfl, rfl, rfl⟩

/-- A file that begins with a header, some windows, and bytes that no window begins with, is no file. -/
theorem no_file {s : Settings} {dict hdr ws v T A : Bytes} {ext : Bool} {c : Coding} (hh : FileHeaderCode library hdr ext c)
    (hw : Windows c ext library s dict [] ws T) (hne : v ≠ [])
    (hno : ∀ w2 T2 r, WindowCode c ext library s dict T w2 T2 → w2 ++ r = v → False) :
    ¬ FileCode library s dict (hdr ++ (ws ++ v)) A := by
  intro h
  generalize hb : hdr ++ (ws ++ v) = b at h
  cases h with
  | @mk hdr' ws' _ ext' c' _ hh' hws' =>
    obtain ⟨rfl, rfl, rfl, e⟩ := hh.unique rfl (by simp [library]) hh' hb
    obtain ⟨B, _, hB⟩ := hw.after rfl hws' e.symm
    generalize hv : v = v' at hB
    cases hB with
    | nil => exact hne hv
    | @cons _ w2 T2 r _ h1 _ => exact hno w2 T2 r h1 hv.symm
  | empty => 
    simp only [List.append_eq_nil_iff] at hb
    exact hne hb.2.2

/-! ## Larger limits -/

theorem Spec.WindowCode.larger {c : Coding} {ext : Bool} {tol : Tolerance} {s s' : Settings} {dict prev w T : Bytes}
    (h : WindowCode c ext tol s dict prev w T) (h1 : s.maxWindow ≤ s'.maxWindow) (h2 : s.maxFile ≤ s'.maxFile)
    (h3 : s.allowTarget = true → s'.allowTarget = true) : WindowCode c ext tol s' dict prev w T := by
  cases h with
  | mk source program tight exec windowLimit fileLimit sections noSurplus targetLength deltaIndicator dataLength
      instLength addrLength checksum deltaLength copies caches =>
    refine .mk ?_ program tight exec (Nat.le_trans windowLimit h1) (Nat.le_trans fileLimit h2) sections noSurplus targetLength
      deltaIndicator dataLength instLength addrLength checksum deltaLength copies caches
    cases source with
    | none h => exact .none h
    | dict k1 k2 k3 k4 => exact .dict k1 k2 k3 k4
    | target k1 k2 k3 k4 k5 => exact .target k1 (h3 k2) k3 k4 k5

theorem Spec.Windows.larger {c : Coding} {ext : Bool} {tol : Tolerance} {s s' : Settings} {dict prev ws T : Bytes}
    (h : Windows c ext tol s dict prev ws T) (h1 : s.maxWindow ≤ s'.maxWindow) (h2 : s.maxFile ≤ s'.maxFile)
    (h3 : s.allowTarget = true → s'.allowTarget = true) : Windows c ext tol s' dict prev ws T := by
  induction h with
  | nil => exact .nil
  | cons h _ ih => exact .cons (h.larger h1 h2 h3) ih

theorem Spec.FileCode.larger {tol : Tolerance} {s s' : Settings} {dict b T : Bytes} (h : FileCode tol s dict b T)
    (h1 : s.maxWindow ≤ s'.maxWindow) (h2 : s.maxFile ≤ s'.maxFile) (h3 : s.allowTarget = true → s'.allowTarget = true) :
    FileCode tol s' dict b T := by
  cases h with
  | mk hh hw => exact .mk hh (hw.larger h1 h2 h3)
  | empty h => exact .empty h

/-- Whatever the limits: after windows that are windows with some limits, there must be a window. -/
theorem no_file_ever {s s' : Settings} {dict hdr ws v T A : Bytes} {ext : Bool} {c : Coding} (hh : FileHeaderCode library hdr ext c)
    (hw : Windows c ext library s dict [] ws T) (hne : v ≠ [])
    (hno : ∀ s2 w2 T2 r, WindowCode c ext library s2 dict T w2 T2 → w2 ++ r = v → False) :
    ¬ FileCode library s' dict (hdr ++ (ws ++ v)) A := by
  intro h
  have big := no_file (s := { maxWindow := s.maxWindow + s'.maxWindow, maxFile := s.maxFile + s'.maxFile, allowTarget := true })
    (A := A) hh (hw.larger (by simp) (by simp) (fun _ => rfl)) hne (fun w2 T2 r => hno _ w2 T2 r)
  exact big (h.larger (by simp) (by simp) (fun _ => rfl))

/-! ## One reading -/

theorem Spec.Reading.same {w : Bytes} {R R' : Reading w} (h : R.ind &&& 4 ≠ 0 → IsVarint R.cks) (h' : R'.ind &&& 4 ≠ 0 → IsVarint R'.cks)
    (hi : R.ind &&& 4 ≠ 0) : R = R' := by
  obtain ⟨ind, seg, dl, tlen, di, dlen, ilen, alen, cks, body, e, n1, n2, v1, v2, v3, v4, v5⟩ := R
  obtain ⟨ind', seg', dl', tlen', di', dlen', ilen', alen', cks', body', e', n1', n2', v1', v2', v3', v4', v5'⟩ := R'
  have q := e.symm.trans e'
  simp only [List.append_assoc, List.cons_append, List.nil_append, List.cons.injEq] at q h h' hi
  obtain ⟨rfl, q⟩ := q
  have h := h hi
  have h' := h' hi
  have hseg : seg = seg' ∧ dl ++ (tlen ++ di :: (dlen ++ (ilen ++ (alen ++ (cks ++ body))))) =
      dl' ++ (tlen' ++ di' :: (dlen' ++ (ilen' ++ (alen' ++ (cks' ++ body'))))) := by
    by_cases h0 : ind &&& 3 = 0
    · rw [n1 h0, n1' h0] at q
      rw [n1 h0, n1' h0]
      exact ⟨rfl, by simpa using q⟩
    · obtain ⟨lb, pb, rfl, k1, k2⟩ := n2 h0
      obtain ⟨lb', pb', rfl, k1', k2'⟩ := n2' h0
      simp only [List.append_assoc] at q
      obtain ⟨rfl, q1⟩ := k1.unique k1' q
      obtain ⟨rfl, q2⟩ := k2.unique k2' q1
      exact ⟨rfl, q2⟩
  obtain ⟨rfl, q0⟩ := hseg
  obtain ⟨rfl, q1⟩ := v1.unique v1' q0
  obtain ⟨rfl, q2⟩ := v2.unique v2' q1
  simp only [List.cons.injEq] at q2
  obtain ⟨rfl, q3⟩ := q2
  obtain ⟨rfl, q4⟩ := v3.unique v3' q3
  obtain ⟨rfl, q5⟩ := v4.unique v4' q4
  obtain ⟨rfl, q6⟩ := v5.unique v5' q5
  obtain ⟨rfl, rfl⟩ := h.unique h' q6
  rfl

/-- A window with a checksum is written in one way. -/
theorem Spec.WrittenAs.unique {c : Coding} {s : Settings} {dict prev w T : Bytes} {R R' : Reading w} {n n' : Nat}
    {items items' : List Item} {ops ops' : List Op} (h : WindowCode c true library s dict prev w T)
    (hw : WrittenAs c true R n items ops) (hw' : WrittenAs c true R' n' items' ops') (hi : R.ind &&& 4 ≠ 0) :
    n = n' ∧ items = items' ∧ ops = ops' := by
  have hv : ∀ {R : Reading w} {n : Nat} {items : List Item} {ops : List Op}, WrittenAs c true R n items ops →
      R.ind &&& 4 ≠ 0 → IsVarint R.cks := fun h hi => by
    have := h.checksum
    rwa [if_pos ⟨rfl, hi⟩] at this
  obtain rfl := Reading.same (R := R) (R' := R') (hv hw) (hv hw') hi
  obtain ⟨src, data, inst, addr, items1, ops1, surplus, g1, _⟩ := h.fields R hw.checksum
  have e1 := g1.segment hw.segment
  have e2 := g1.segment hw'.segment
  subst e1
  obtain ⟨d0, i0, a0, s1, s2, s3, s4, s5⟩ := hw.sections
  obtain ⟨d1, i1, a1, t1, t2, t3, t4, t5⟩ := hw'.sections
  have := hw.complete.1
  have := hw'.complete.1
  refine ⟨e2, sections_unique (r := []) (u := []) (surplus := 0) (surplus2 := 0) hw.program (e2 ▸ hw'.program) hw.complete.2
    hw'.complete.2 s1 t1 (by omega) (by omega) (by omega) (by omega) (Or.inl rfl) (Or.inl rfl) (by rw [← s2, ← t2])⟩

/-- A byte of the data section belongs to the data of an instruction. -/
theorem data_split {items : List Item} {a z : Bytes} {x : UInt8} (h : items.flatMap Item.dataBytes = a ++ x :: z) :
    ∃ front back a' z', items = front ++ .data (a' ++ x :: z') :: back ∧ a = front.flatMap Item.dataBytes ++ a' ∧
      z = z' ++ back.flatMap Item.dataBytes := by
  induction items generalizing a with
  | nil => simp at h
  | cons i items ih =>
    have hskip : i.dataBytes = [] → ∃ front back a' z', i :: items = front ++ .data (a' ++ x :: z') :: back ∧
        a = front.flatMap Item.dataBytes ++ a' ∧ z = z' ++ back.flatMap Item.dataBytes := by
      intro h0
      rw [List.flatMap_cons, h0, List.nil_append] at h
      obtain ⟨front, back, a', z', e1, e2, e3⟩ := ih h
      exact ⟨i :: front, back, a', z', by rw [e1]; rfl, by rw [List.flatMap_cons, h0]; exact e2, e3⟩
    cases i with
    | data bs =>
      simp only [List.flatMap_cons, Item.dataBytes] at h
      rcases List.append_eq_append_iff.1 h with ⟨l, e1, e2⟩ | ⟨l, e1, e2⟩
      · obtain ⟨front, back, a', z', k1, k2, k3⟩ := ih e2
        exact ⟨.data bs :: front, back, a', z', by rw [k1]; rfl, by rw [e1, k2]; simp [Item.dataBytes], k3⟩
      · cases l with
        | nil =>
          simp only [List.nil_append] at e2
          obtain ⟨front, back, a', z', k1, k2, k3⟩ := ih (a := []) e2.symm
          refine ⟨.data bs :: front, back, a', z', by rw [k1]; rfl, ?_, k3⟩
          simp only [List.append_nil] at e1
          simp only [List.flatMap_cons, Item.dataBytes, List.append_assoc, ← k2, List.append_nil, e1]
        | cons y l =>
          simp only [List.cons_append, List.cons.injEq] at e2
          obtain ⟨rfl, rfl⟩ := e2
          exact ⟨[], items, a, l, by rw [e1]; rfl, by simp, rfl⟩
    | _ => exact hskip rfl

/-- Changing a byte of the data section changes the text of an instruction. -/
theorem Spec.DataChanged.literal {c : Coding} {s : Settings} {dict prev w w' T : Bytes}
    (h : WindowCode c true library s dict prev w T) (hd : DataChanged w w') : ∃ n ops, LiteralChanged c n ops w w' := by
  obtain ⟨R, head, a, z, x, y, hi, hv, hw, hne, hb, hl, rfl⟩ := hd
  obtain ⟨src, data, inst, addr, items, ops, surplus, g1, g2, g3, g4, g5, g6, g7, g8, g9, g10, g11, g12, g13⟩ :=
    h.fields R (by rw [if_pos ⟨rfl, hi⟩]; exact hv)
  have hdl := g8.2.1
  have hdne : data ≠ [] := by
    intro h0
    rw [h0] at hdl
    simp at hdl
    omega
  have hs0 : surplus = 0 := by
    rcases g6 with h | ⟨_, _, h, _⟩
    · exact h
    · exact absurd h hdne
  subst hs0
  have ht : Tight items ops := by
    rcases g3 with h | h
    · simp [library] at h
    · exact h
  have hsec := g5
  unfold SectionCode at hsec
  rw [if_neg (fun h => hdne h.2.1)] at hsec
  -- the place
  have hsplit : ∃ z0, data = a ++ x :: z0 ∧ z = z0 ++ (inst ++ addr) := by
    rw [hb] at g13
    simp only [List.append_assoc] at g13
    rcases List.append_eq_append_iff.1 g13 with ⟨l, e1, e2⟩ | ⟨l, e1, e2⟩
    · cases l with
      | nil =>
        simp only [List.append_nil] at e1
        rw [← e1] at hl
        omega
      | cons y' l =>
        simp only [List.cons_append, List.cons.injEq] at e2
        obtain ⟨rfl, e2⟩ := e2
        exact ⟨l, e1, e2⟩
    · rw [e1, List.length_append] at hl
      omega
  obtain ⟨z0, rfl, rfl⟩ := hsplit
  obtain ⟨front, back, a', z', rfl, e2, e3⟩ := data_split hsec.1.symm
  refine ⟨src.length, ops, R, head, a', z', a ++ y :: z0, inst, addr, x, y, front, back, hi, hw, hne, ⟨?_, ?_, g2, ?_, ?_⟩, ?_, ?_, ?_⟩
  · unfold SegmentLength
    generalize R.ind = ind at g1
    generalize R.seg = seg at g1
    cases g1 with
    | none h => exact Or.inl ⟨h, rfl⟩
    | @dict lb pb len pos k1 k2 k3 k4 =>
      exact Or.inr ⟨by rw [k1]; decide, lb, pb, rfl, k2.1, k3.1, by rw [k2.2.1, List.length_take, List.length_drop]; omega⟩
    | @target lb pb len pos k1 k2 k3 k4 k5 =>
      exact Or.inr ⟨by rw [k1]; decide, lb, pb, rfl, k3.1, k4.1, by rw [k3.2.1, List.length_take, List.length_drop]; omega⟩
  · rw [if_pos ⟨rfl, hi⟩]; exact hv
  · exact ⟨by rw [g7.2.1, exec_sizes g4], ht⟩
  · exact ⟨_, inst, addr, g5, g13, g8.2.1, g9.2.1, g10.2.1⟩
  · unfold SectionCode
    rw [if_neg (by simp)]
    refine ⟨?_, ?_, ?_⟩
    · rw [e2, e3]; simp [Item.dataBytes]
    · rw [hsec.2.1]; simp [Item.inst]
    · rw [hsec.2.2]; simp [Item.addr]
  · rw [hdl]; simp
  · simp

end Vcd
