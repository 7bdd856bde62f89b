import Verif.Lemmas.ParallelSystem
/-! # Lemmas on what waits inside the parallel writer -/
set_option linter.unusedSimpArgs false
set_option linter.flexible false
namespace OsmIo
open Spec

namespace ParSystem

/-- The queues are no longer than they may be. -/
structure Bounded (g : Config) (s : ParSystem) : Prop where
  order : s.orderQueue.length ≤ g.cap
  queue : s.queue.length ≤ g.cap
  encoding : s.encoding.length ≤ g.threads
  write : s.writeQueue.length ≤ g.cap

theorem step_bounded {g : Config} {s t : ParSystem} (h : Bounded g s) (hs : Step g s t) : Bounded g t := by
  obtain ⟨h1, h2, h3, h4⟩ := h
  cases hs
  all_goals
    constructor
    all_goals
      simp_all only [List.length_append, List.length_cons, List.length_nil]
      try omega

theorem steps_bounded {g : Config} {ops : List Op} {s : ParSystem} (hs : Steps g (init ops) s) : Bounded g s := by
  induction hs with
  | refl => exact ⟨by simp [init], by simp [init], by simp [init], by simp [init]⟩
  | tail _ hs ih => exact step_bounded ih hs

/-! ## A schedule in which the first block comes last -/

/-- The first block is still being encoded, all later ones that have been made wait for it. -/
structure Lag (g : Config) (s : ParSystem) : Prop where
  ok : s.failed = false
  order : s.orderQueue = [] ∨ s.flushing = true
  queue : s.queue = []
  write : s.writeQueue = []
  next : s.next = 1
  writer : s.writer = some ((Writer.fromFileInfo g.info g.c).writeHeader g.z)
  stage : s.stage < 2
  sent : s.sent ≤ s.orderer.blocks.length
  first : (s.sent = 0 ∧ s.encoding = [] ∧ s.held = []) ∨ (∃ b, s.encoding = [(1, b)]) ∧ s.held.length + 1 = s.sent ∧ ∀ x ∈ s.held, x.1 ≠ 1 ∧ x.1 ≤ s.sent

/-- What the caller and the ordering thread are about does not change. -/
def SameFront (s t : ParSystem) : Prop :=
  t.ops = s.ops ∧ t.stage = s.stage ∧ t.orderQueue = s.orderQueue ∧ t.orderer = s.orderer ∧ t.flushing = s.flushing

theorem lag_submit {g : Config} (hcap : 0 < g.cap) (hthr : 2 ≤ g.threads) {s : ParSystem} (h : Lag g s) (hb : s.sent < s.orderer.blocks.length) :
    ∃ t, Steps g s t ∧ Lag g t ∧ SameFront s t ∧ t.sent = s.sent + 1 := by
  obtain ⟨ok, order, queue, write, next, writer, stage, sent, first⟩ := h
  have e0 : s.orderer.blocks[s.sent]? = some s.orderer.blocks[s.sent] := List.getElem?_eq_getElem hb
  generalize s.orderer.blocks[s.sent] = b at e0
  have st1 := Step.submit (g := g) s b ok e0 stage (by simp [queue, hcap])
  have st2 := Step.take (g := g) (l := []) (r := []) (b := (s.sent + 1, b)) (s := { s with sent := s.sent + 1, queue := s.queue ++ [(s.sent + 1, b)] }) ok (by simp [queue])
    (by
      rcases first with ⟨-, he, -⟩ | ⟨⟨b1, he⟩, -, -⟩
      · simp [he]; omega
      · simp [he]; omega)
  rcases first with ⟨hz, he, hh⟩ | ⟨⟨b1, he⟩, hl, hk⟩
  · refine ⟨_, (Relation.ReflTransGen.single st1).tail st2, ⟨ok, order, rfl, write, next, writer, stage, hb, .inr ?_⟩, ⟨rfl, rfl, rfl, rfl, rfl⟩, rfl⟩
    refine ⟨⟨b, by simp [he, hz]⟩, by simp [hh, hz], by simp [hh]⟩
  · have st3 := Step.encode (g := g) (s := { s with sent := s.sent + 1, queue := [] ++ [], encoding := s.encoding ++ [(s.sent + 1, b)] })
      (l := s.encoding) (r := []) (k := s.sent + 1) (es := b) ok rfl (by simp only; omega) (by simp [write, hcap])
    have st4 := Step.write (g := g)
      (s := { s with sent := s.sent + 1, queue := [] ++ [], encoding := s.encoding ++ []
                     writeQueue := s.writeQueue ++ [.blob (s.sent + 1) ((FileBlock.data b).serialize g.z g.c)] })
      (k := s.sent + 1) (b := (FileBlock.data b).serialize g.z g.c) (rest := []) _ ok (by simp [write]) writer
    have hins : mapInsert (s.sent + 1) ((FileBlock.data b).serialize g.z g.c) s.held = (s.sent + 1, (FileBlock.data b).serialize g.z g.c) :: s.held := by
      unfold mapInsert
      congr 1
      rw [List.filter_eq_self]
      intro x hx
      have := (hk x hx).2
      simp only [bne_iff_ne, ne_eq]
      omega
    have hrem : mapRemove 1 (mapInsert (s.sent + 1) ((FileBlock.data b).serialize g.z g.c) s.held) = none := by
      rw [hins]
      unfold mapRemove
      have : List.find? (fun x => x.1 == 1) ((s.sent + 1, (FileBlock.data b).serialize g.z g.c) :: s.held) = none := by
        rw [List.find?_eq_none]
        intro x hx
        rcases List.mem_cons.mp hx with rfl | hx
        · simp only [beq_iff_eq]; omega
        · simpa using (hk x hx).1
      rw [this]
    have hready : ∀ n w, writeReady (n + 1) (mapInsert (s.sent + 1) ((FileBlock.data b).serialize g.z g.c) s.held) s.next w =
        (mapInsert (s.sent + 1) ((FileBlock.data b).serialize g.z g.c) s.held, s.next, w) := by
      intro n w
      rw [next]
      simp only [writeReady, hrem]
    simp only [hready] at st4
    refine ⟨_, (((Relation.ReflTransGen.single st1).tail st2).tail st3).tail st4, ⟨ok, order, rfl, rfl, next, rfl, stage, hb, .inr ?_⟩,
      ⟨rfl, rfl, rfl, rfl, rfl⟩, rfl⟩
    refine ⟨⟨b1, by simp [he]⟩, by simp only [hins, List.length_cons]; omega, ?_⟩
    simp only [hins, List.mem_cons]
    rintro x (rfl | hx)
    · exact ⟨by simp only; omega, le_refl _⟩
    · exact ⟨(hk x hx).1, by have := (hk x hx).2; omega⟩

theorem SameFront.trans {a b c : ParSystem} (h1 : SameFront a b) (h2 : SameFront b c) : SameFront a c := by
  obtain ⟨a1, a2, a3, a4, a5⟩ := h1
  obtain ⟨b1, b2, b3, b4, b5⟩ := h2
  exact ⟨b1.trans a1, b2.trans a2, b3.trans a3, b4.trans a4, b5.trans a5⟩

theorem lag_ready {g : Config} (hcap : 0 < g.cap) (hthr : 2 ≤ g.threads) {s : ParSystem} (h : Lag g s) :
    ∃ t, Steps g s t ∧ Lag g t ∧ SameFront s t ∧ t.Ready := by
  induction hn : s.orderer.blocks.length - s.sent generalizing s with
  | zero => exact ⟨s, .refl, h, ⟨rfl, rfl, rfl, rfl, rfl⟩, by have := h.sent; unfold Ready; omega⟩
  | succ n ih =>
    obtain ⟨t, h1, h2, h3, h4⟩ := lag_submit hcap hthr h (by omega)
    obtain ⟨u, k1, k2, k3, k4⟩ := ih h2 (by rw [h3.2.2.2.1]; omega)
    exact ⟨u, h1.trans k1, k2, h3.trans k3, k4⟩

theorem lag_ops {g : Config} (hcap : 0 < g.cap) (hthr : 2 ≤ g.threads) (ops : List Op) : ∀ {s : ParSystem} {o : Orderer}, Lag g s → s.Ready → s.stage = 0 →
    s.flushing = false → s.ops = ops → s.orderer.run g.S g.bufferSize g.blockSize (callsOf ops) = .ok o →
    ∃ t, Steps g s t ∧ Lag g t ∧ t.Ready ∧ t.stage = 0 ∧ t.flushing = false ∧ t.ops = [] ∧ t.orderer = o := by
  induction ops with
  | nil =>
    intro s o h hr h0 hfl ho hrun
    simp [callsOf, Orderer.run] at hrun
    exact ⟨s, .refl, h, hr, h0, hfl, ho, hrun⟩
  | cons op ops ih =>
    intro s o h hr h0 hfl ho hrun
    have hoq : s.orderQueue = [] := h.order.resolve_right (by simp [hfl])
    cases op with
    | header =>
      have st1 := Step.header (g := g) s ops h.ok h0 ho (by simp [h.write, hcap])
      have st2 := Step.writeHeader (g := g) (s := { s with ops := ops, writeQueue := s.writeQueue ++ [.header] }) (rest := []) h.ok (by simp [h.write])
      obtain ⟨t, k1, k2⟩ := ih (s := { s with ops := ops, writeQueue := [], writer := some (s.writer.getD ((Writer.fromFileInfo g.info g.c).writeHeader g.z)) })
        (o := o) ⟨h.ok, h.order, h.queue, rfl, h.next, by simp [h.writer], h.stage, h.sent, h.first⟩ hr h0 hfl rfl hrun
      exact ⟨t, .head st1 (.head st2 k1), k2⟩
    | write c =>
      have e : callsOf (Op.write c :: ops) = c :: callsOf ops := rfl
      rw [e, run_cons, Out.bind_eq_ok] at hrun
      obtain ⟨o1, e1, e2⟩ := hrun
      have st1 := Step.call (g := g) s c ops h.ok h0 ho (by simp [hoq, hcap])
      have st2 := Step.exec (g := g) (s := { s with ops := ops, orderQueue := s.orderQueue ++ [.exec c] }) (c := c) (rest := []) (o := o1) h.ok
        (by simp [hoq]) hfl hr e1
      have hp := exec_blocks e1
      obtain ⟨t, k1, k2, k3, k4⟩ := lag_ready hcap hthr (g := g) (s := { s with ops := ops, orderQueue := [], orderer := o1 })
        ⟨h.ok, .inl rfl, h.queue, h.write, h.next, h.writer, h.stage, h.sent.trans hp.length_le, h.first⟩
      obtain ⟨q1, q2, q3, q4, q5⟩ := k3
      obtain ⟨u, l1, l2⟩ := ih k2 k4 (q2.trans h0) (q5.trans hfl) q1 (by rw [q4]; exact e2)
      exact ⟨u, .head st1 (.head st2 (k1.trans l1)), l2⟩

theorem lag_flush {g : Config} (hcap : 0 < g.cap) (hthr : 2 ≤ g.threads) {a o : Orderer} (hl : Orderer.FlushLoop g.blockSize a o) :
    ∀ {s : ParSystem}, Lag g s → s.Ready → s.flushing = true → s.orderer = a → ∃ t, Steps g s t ∧ Lag g t ∧ t.Ready ∧ t.orderer = o := by
  induction hl with
  | done a ha => intro s h hr _ ho; exact ⟨s, .refl, h, hr, ho⟩
  | step a a' ha hn ih =>
    rintro s h hr hfl rfl
    have st1 := Step.flushRound (g := g) s h.ok hfl hr ha
    obtain ⟨t, k1, k2, k3, k4⟩ := lag_ready hcap hthr (g := g) (s := { s with orderer := s.orderer.emit g.blockSize })
      ⟨h.ok, .inr hfl, h.queue, h.write, h.next, h.writer, h.stage, by
        have := h.sent
        simp only [Orderer.emit, List.length_append]
        omega, h.first⟩
    obtain ⟨q1, q2, q3, q4, q5⟩ := k3
    obtain ⟨u, l1, l2⟩ := ih k2 k4 (q5.trans hfl) q4
    exact ⟨u, .head st1 (k1.trans l1), l2⟩

theorem lag_all {g : Config} (hcap : 0 < g.cap) (hthr : 2 ≤ g.threads) (ops : List Op) {o o' : Orderer}
    (hr : Orderer.run g.S g.bufferSize g.blockSize {} (callsOf ops) = .ok o) (hl : o.FlushAll g.S g.blockSize o') :
    ∃ s, Steps g (init (.header :: ops)) s ∧ Lag g s ∧ s.Ready ∧ s.orderer = o' := by
  have st1 := Step.header (g := g) (init (.header :: ops)) ops rfl rfl rfl (by simp [init, hcap])
  have st2 := Step.writeHeader (g := g) (s := { init (.header :: ops) with ops := ops, writeQueue := (init (.header :: ops)).writeQueue ++ [.header] })
    (rest := []) rfl (by simp [init])
  obtain ⟨t, k1, k2, k3, k4, k5, k6, rfl⟩ := lag_ops hcap hthr (g := g) ops
    (s := { init (.header :: ops) with ops := ops, writeQueue := []
                                       writer := some ((init (.header :: ops)).writer.getD ((Writer.fromFileInfo g.info g.c).writeHeader g.z)) }) (o := o)
    ⟨rfl, .inl rfl, rfl, rfl, rfl, by simp [init], by simp [init], by simp [init], .inl ⟨rfl, rfl, rfl⟩⟩ rfl rfl rfl rfl hr
  have hoq : t.orderQueue = [] := k2.order.resolve_right (by simp [k5])
  have st3 := Step.close (g := g) t k2.ok k4 k6 (by simp [hoq, hcap])
  have st4 := Step.flushStart (g := g) (s := { t with stage := 1, orderQueue := t.orderQueue ++ [.flush] }) (rest := []) k2.ok (by simp [hoq]) k5 k3
  obtain ⟨u, l1, l2, l3, l4⟩ := lag_flush hcap hthr (g := g) hl
    (s := { t with stage := 1, orderQueue := [], flushing := true, orderer := { t.orderer with buffer := g.S.sort t.orderer.buffer } })
    ⟨k2.ok, .inl rfl, k2.queue, k2.write, k2.next, k2.writer, by simp, k2.sent, k2.first⟩ k3 rfl rfl
  exact ⟨u, .head st1 (.head st2 (k1.trans (.head st3 (.head st4 l1)))), l2, l3, l4⟩

end ParSystem
end OsmIo
