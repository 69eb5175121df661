import Verif.Spec.Pipe
import Verif.Props.Encoder

/-!
# C53: a stream keeps up with its sender
-/

namespace Vcd
open Spec

theorem feed_one {d d' : Decoder} {c out : Bytes} (h : d.feed [c] = some (out, d')) :
    d.call (.chunk c) = .ok (⟨true, out⟩, d') := by
  simp only [Decoder.feed] at h
  simp only [Decoder.call]
  cases hc : d.decodeChunk c with
  | fault f => rw [hc] at h; simp at h
  | error L o => rw [hc] at h; simp at h
  | ok L nested o =>
    rw [hc] at h
    simp only [List.append_nil, Option.some.injEq, Prod.mk.injEq] at h
    rw [← h.1, ← h.2]

/-- The state of a pipe after sending `chunks`, with `cs` delivered so far. -/
structure Pipe.Inv (e0 : Encoder) (m : InstructionMap) (d0 : Decoder) (dict : Bytes) (chunks cs : List Bytes) (p : Pipe) :
    Prop where
  encoder : Encoder.Inv e0 m p.encoder
  allowed : p.encoder.allowed = true
  sent : p.sent = chunks.flatten
  bytes : cs.flatten ++ p.channel = Writer.header e0.flags ++ chunks.flatMap (Encoder.window e0 m)
  decoder : (d0.start dict).feed cs = some (p.received, p.decoder)

/-- Whatever part of the output has been delivered. -/
theorem Pipe.Inv.delivered {e0 : Encoder} {m : InstructionMap} {d0 : Decoder} {dict : Bytes} {chunks cs : List Bytes} {p : Pipe}
    (h : Pipe.Inv e0 m d0 dict chunks cs p)
    (hdec : ∀ cs : List Bytes, cs.flatten = Writer.header e0.flags ++ chunks.flatMap (Encoder.window e0 m) →
      d0.decode dict cs = some chunks.flatten) :
    p.received <+: p.sent ∧ (p.channel = [] → p.received = p.sent ∧ p.decoder.finish.1 = true) := by
  constructor
  · obtain ⟨e, h1, _⟩ := decode_some.1 (hdec (cs ++ [p.channel]) (by simpa using h.bytes))
    obtain ⟨d1, o1, o2, k1, _, k3⟩ := feed_append.1 h1
    rw [h.decoder] at k1
    simp only [Option.some.injEq, Prod.mk.injEq] at k1
    rw [h.sent, k3, k1.1]
    exact List.prefix_append _ _
  · intro hc
    obtain ⟨e, h1, h2⟩ := decode_some.1 (hdec cs (by simpa [hc] using h.bytes))
    rw [h.decoder] at h1
    simp only [Option.some.injEq, Prod.mk.injEq] at h1
    rw [h.sent, h1.2]
    exact ⟨h1.1, h2⟩

theorem Pipe.run_ok {e0 : Encoder} {m : InstructionMap} {d0 : Decoder} {dict : Bytes} (u : Writer.Usable defaultCoding 8 m)
    (he : Engine.init dict = .ok (some e0.engine)) (hd : e0.engine.dictionary = dict) (ok : List Bytes → Prop)
    (hsmall : ∀ chunks data, ok (chunks ++ [data]) → Encoder.Small dict data)
    (hpre : ∀ chunks more, ok (chunks ++ more) → ok chunks)
    (hdec : ∀ chunks, ok chunks → ∀ cs : List Bytes,
      cs.flatten = Writer.header e0.flags ++ chunks.flatMap (Encoder.window e0 m) → d0.decode dict cs = some chunks.flatten) :
    ∀ (evs : List PipeEvent) (chunks cs : List Bytes) (p : Pipe), Pipe.Inv e0 m d0 dict chunks cs p →
      ok (chunks ++ chunksSent evs) →
      ∃ cs' p', p.run evs = some p' ∧ Pipe.Inv e0 m d0 dict (chunks ++ chunksSent evs) cs' p' := by
  intro evs
  induction evs with
  | nil => intro chunks cs p h _; exact ⟨cs, p, rfl, by simpa [chunksSent] using h⟩
  | cons ev evs ih =>
    intro chunks cs p h hok
    cases ev with
    | send data =>
      simp only [chunksSent] at hok ⊢
      rw [show chunks ++ data :: chunksSent evs = (chunks ++ [data]) ++ chunksSent evs by simp] at hok ⊢
      obtain ⟨e', k1, k2, k3⟩ := Encoder.chunk_ok u he hd h.encoder h.allowed (hsmall chunks data (hpre _ _ hok))
      obtain ⟨cs', p', r1, r2⟩ := ih (chunks ++ [data]) cs
        { p with encoder := e', channel := p.channel ++ Encoder.window e0 m data, sent := p.sent ++ data }
        ⟨k2, k3, by simp [h.sent], by
          simp only [List.flatMap_append, List.flatMap_cons, List.flatMap_nil, List.append_nil, ← List.append_assoc]
          rw [h.bytes], h.decoder⟩ hok
      exact ⟨cs', p', by rw [Pipe.run, Pipe.step, k1]; exact r1, r2⟩
    | deliver n =>
      simp only [chunksSent] at hok ⊢
      have hb : (cs ++ ([p.channel.take n] ++ [p.channel.drop n])).flatten =
          Writer.header e0.flags ++ chunks.flatMap (Encoder.window e0 m) := by
        rw [← h.bytes]; simp
      obtain ⟨e, h1, _⟩ := decode_some.1 (hdec chunks (hpre _ _ hok) _ hb)
      obtain ⟨d1, o1, o2, f1, f2, _⟩ := feed_append.1 h1
      rw [h.decoder] at f1
      simp only [Option.some.injEq, Prod.mk.injEq] at f1
      obtain ⟨d2, o3, o4, f3, _, _⟩ := feed_append.1 f2
      rw [← f1.2] at f3
      obtain ⟨cs', p', r1, r2⟩ := ih chunks (cs ++ [p.channel.take n])
        { p with decoder := d2, channel := p.channel.drop n, received := p.received ++ o3 }
        ⟨h.encoder, h.allowed, h.sent, by rw [← h.bytes]; simp,
          feed_append.2 ⟨_, _, _, h.decoder, f3, rfl⟩⟩ hok
      exact ⟨cs', p', by rw [Pipe.run, Pipe.step, feed_one f3]; exact r1, r2⟩

namespace Props

/-- C53. A sender encodes chunks as they come and sends each output at once; the channel delivers the bytes in pieces of any
size at any time. For every order of these events no call fails, what the receiver has is always a beginning of
what has been sent, and whenever the channel is empty the receiver has everything: the encoder holds nothing back, nor does the
decoder. Then, too, both ends may finish. The encoder may have been used before, in any way. -/
theorem stream_keeps_up (dict : Bytes) (hdict : dict.length < 2 ^ 31) (flags : Nat) (hb : flags &&& 4 = 0) (matching : Bool)
    (history : List EncoderCall)
    (hh : EachChunk (fun data => dict.length + data.length < 2 ^ 31 ∧ data.length + 64 < 2 ^ 31) history)
    (s : Settings) (evs : List PipeEvent)
    (hs : ∀ data ∈ chunksSent evs, dict.length + data.length < 2 ^ 31 ∧ data.length + 64 < 2 ^ 31)
    (hwin : ∀ data ∈ chunksSent evs, data.length ≤ s.maxWindow) (hfile : (chunksSent evs).flatten.length ≤ s.maxFile) :
    ∃ engine rs e p p', Engine.init dict = .ok (some engine) ∧
      (Encoder.new engine flags matching).calls history = .ok (rs, e) ∧
      Pipe.open e (configured s) dict = some p ∧ p.run evs = some p' ∧
      p'.sent = (chunksSent evs).flatten ∧ p'.received <+: p'.sent ∧
      (p'.channel = [] → p'.received = p'.sent ∧ p'.encoder.finish.1 = true ∧ p'.decoder.finish.1 = true) := by
  obtain ⟨engine, hashed, h1, h2, _⟩ := Engine.init_ok (dict := dict) (by simp only [int32Max]; omega)
  have hd : engine.dictionary = dict := by rw [h2]
  obtain ⟨m, u⟩ := Encoder.usable
  obtain ⟨e, k1, k2⟩ := Encoder.calls_ok (e0 := Encoder.new engine flags matching) (dict := dict) u h1 hd
    (Encoder.new_inv hb m) hh
  obtain ⟨e1, j1, j2, j3⟩ := Encoder.start_ok u k2
  have hready : ∀ data, Writer.Ready defaultCoding 8 m dict.length
      (Encoder.chunkWriter (Encoder.new engine flags matching) m data) := by
    intro data
    have := Encoder.chunkWriter_always_ready (e0 := Encoder.new engine flags matching) u data
    simp only [Encoder.new, hd] at this ⊢
    exact this
  have hdec : ∀ chunks : List Bytes, ((∀ data ∈ chunks, Encoder.Small dict data ∧ data.length ≤ s.maxWindow) ∧
      chunks.flatten.length ≤ s.maxFile) → ∀ cs : List Bytes,
      cs.flatten = Writer.header (Encoder.new engine flags matching).flags ++
        chunks.flatMap (Encoder.window (Encoder.new engine flags matching) m) →
      (configured s).decode dict cs = some chunks.flatten := by
    intro chunks hc cs hcs
    have hw : Windows defaultCoding (flags != 0) strict s dict []
        (chunks.flatMap (Encoder.window (Encoder.new engine flags matching) m)) chunks.flatten := by
      refine Encoder.windows_of_chunks ?_ ?_ (by simpa using hc.2)
      · rcases Encoder.window_spec (e0 := Encoder.new engine flags matching) u h1 ⟨by simpa using hdict, by simp⟩ (hready [])
          with ⟨_, w1, _⟩ | ⟨w1, _⟩
        · exact w1
        · exact absurd rfl w1
      · intro data hm hne prev hp
        rcases Encoder.window_spec (e0 := Encoder.new engine flags matching) u h1 (hc.1 data hm).1 (hready data)
          with ⟨w1, _⟩ | ⟨_, _, _, _, _, _, w5, _⟩
        · exact absurd w1 hne
        · exact w5 s prev (hc.1 data hm).2 hp
    exact conforming_accepted_partial s dict _ _ (Writer.fileCode_of_windows hw) cs hcs
  obtain ⟨cs', p', r1, r2⟩ := Pipe.run_ok (d0 := configured s) u h1 hd
    (fun chunks => (∀ data ∈ chunks, Encoder.Small dict data ∧ data.length ≤ s.maxWindow) ∧
      chunks.flatten.length ≤ s.maxFile)
    (fun chunks data h => (h.1 data (by simp)).1)
    (fun chunks more h => ⟨fun data hm => h.1 data (by simp [hm]), by have := h.2; simp at this ⊢; omega⟩)
    hdec evs [] [] { encoder := e1, channel := Writer.header flags, decoder := (configured s).start dict }
    ⟨j2, j3, rfl, by simp [Encoder.new], rfl⟩ ⟨fun data hm => ⟨hs data (by simpa using hm), hwin data (by simpa using hm)⟩, by simpa using hfile⟩
  have hc : (∀ data ∈ [] ++ chunksSent evs, Encoder.Small dict data ∧ data.length ≤ s.maxWindow) ∧
      ([] ++ chunksSent evs).flatten.length ≤ s.maxFile :=
    ⟨fun data hm => ⟨hs data (by simpa using hm), hwin data (by simpa using hm)⟩, by simpa using hfile⟩
  obtain ⟨g1, g2⟩ := r2.delivered (hdec _ hc)
  refine ⟨engine, _, e, _, p', h1, k1, ?_, r1, by simpa using r2.sent, g1, ?_⟩
  · simp only [Pipe.open, j1]
    rfl
  · intro hch
    refine ⟨(g2 hch).1, ?_, (g2 hch).2⟩
    simp only [Encoder.finish, r2.allowed, Bool.not_true, Bool.false_eq_true, if_false]
    split <;> rfl

/-- An instance of the hypotheses: two chunks, delivered in parts, and what the receiver has after all events but the last and
after all of them. -/
example : let evs : List PipeEvent := [.deliver 3, .send [0x61, 0x62], .deliver 8, .send [0x63], .deliver 9, .deliver 100]
    let opened := (Engine.init []).toOption.join.bind fun engine =>
      Pipe.open (Encoder.new engine 1 true) (configured {}) []
    (∀ data ∈ chunksSent evs, ([] : Bytes).length + data.length < 2 ^ 31 ∧ data.length + 64 < 2 ^ 31) ∧
    (∀ data ∈ chunksSent evs, data.length ≤ ({} : Settings).maxWindow) ∧
    (chunksSent evs).flatten.length ≤ ({} : Settings).maxFile ∧
    ((opened.bind (·.run (evs.take 5))).map fun p => (p.sent, p.received)) = some ([0x61, 0x62, 0x63], [0x61, 0x62]) ∧
    ((opened.bind (·.run evs)).map fun p => (p.sent, p.received)) = some ([0x61, 0x62, 0x63], [0x61, 0x62, 0x63]) := by
  refine ⟨by decide, by decide, by decide, by decide +kernel, ?_⟩
  decide +kernel

end Props
end Vcd
