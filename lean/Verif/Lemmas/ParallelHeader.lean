import Verif.Lemmas.ParallelSystem
/-! # Lemmas on programs that call `write_header` at any time -/
set_option linter.unusedSimpArgs false
set_option linter.flexible false
namespace OsmIo
open Spec

theorem exec_not_err {S : StdSort} {B F : Nat} (o : Orderer) (c : WriteCall) : o.exec S B F c ≠ .err := by
  have hpush : ∀ (o : Orderer) e, o.push e ≠ .err := by
    intro o e
    unfold Orderer.push
    split <;> simp
  have hfold : ∀ (es : List Element) (o : Orderer), es.foldlM (fun s e => s.push e) o ≠ .err := by
    intro es
    induction es with
    | nil => intro o; simp
    | cons e es ih =>
      intro o
      rw [List.foldlM_cons]
      cases h : o.push e with
      | ok o' => exact ih o'
      | err => exact absurd h (hpush o e)
      | panic => simp
  cases c with
  | element e =>
    simp only [Orderer.exec]
    cases h : o.push e with
    | ok o' => simp
    | err => exact absurd h (hpush o e)
    | panic => simp
  | elements es =>
    simp only [Orderer.exec]
    cases h : es.foldlM (fun s e => s.push e) o with
    | ok o' => simp
    | err => exact absurd h (hfold es o)
    | panic => simp

theorem run_not_err {S : StdSort} {B F : Nat} : ∀ (calls : List WriteCall) (o : Orderer), o.run S B F calls ≠ .err := by
  intro calls
  induction calls with
  | nil => intro o; simp [Orderer.run]
  | cons c calls ih =>
    intro o
    rw [run_cons]
    cases h : o.exec S B F c with
    | ok o' => exact ih o'
    | panic => simp
    | err => exact absurd h (exec_not_err o c)

theorem run_prefix {S : StdSort} {B F : Nat} : ∀ (calls : List WriteCall) {o o' : Orderer}, o.run S B F calls = .ok o' → o.blocks <+: o'.blocks := by
  intro calls
  induction calls with
  | nil =>
    intro o o' h
    simp [Orderer.run] at h
    subst h
    exact List.prefix_refl _
  | cons c calls ih =>
    intro o o' h
    rw [run_cons, Out.bind_eq_ok] at h
    obtain ⟨o1, h1, h2⟩ := h
    exact (ParSystem.exec_blocks h1).trans (ih h2)

/-- No block is made while the ordering buffer has room for all elements. -/
theorem run_room {S : StdSort} {B F : Nat} : ∀ (calls : List WriteCall) {o o' : Orderer}, o.buffer.length + (submitted calls).length ≤ B →
    o.run S B F calls = .ok o' → o'.blocks = o.blocks ∧ o'.buffer = o.buffer ++ submitted calls := by
  intro calls
  induction calls with
  | nil =>
    intro o o' _ h
    simp [Orderer.run] at h
    subst h
    simp [submitted]
  | cons c calls ih =>
    intro o o' hl h
    rw [run_cons, Out.bind_eq_ok] at h
    obtain ⟨o1, h1, h2⟩ := h
    have e : submitted (c :: calls) = submitted [c] ++ submitted calls := by simp [submitted]
    rw [e, List.length_append] at hl
    obtain ⟨-, rfl⟩ := exec_ok h1
    have hc : Orderer.checkFull S B F { o with buffer := o.buffer ++ submitted [c] } = { o with buffer := o.buffer ++ submitted [c] } := by
      unfold Orderer.checkFull
      rw [if_neg]
      simp only [List.length_append]
      omega
    rw [hc] at h2
    obtain ⟨k1, k2⟩ := ih (o := { o with buffer := o.buffer ++ submitted [c] }) (by simp only [List.length_append]; omega) h2
    exact ⟨k1, by rw [k2, e]; simp⟩

theorem run_nothing {S : StdSort} {B F : Nat} : ∀ (calls : List WriteCall), submitted calls = [] → Orderer.run S B F {} calls = .ok {} := by
  intro calls
  induction calls with
  | nil => intro _; rfl
  | cons c calls ih =>
    intro h
    have e : submitted (c :: calls) = submitted [c] ++ submitted calls := by simp [submitted]
    rw [e, List.append_eq_nil_iff] at h
    have h1 : Orderer.exec S B F {} c = .ok {} := by
      cases c with
      | element e => simp [submitted] at h
      | elements es =>
        have : es = [] := by simpa [submitted] using h.1
        subst this
        simp [Orderer.exec, Orderer.checkFull]
    rw [run_cons, h1]
    exact ih h.2

namespace ParSystem

theorem writes_append (a b : List Op) : writes (a ++ b) = writes a ++ writes b := by simp [writes, callsOf]

/-- The call a thread panics in is one the ordering thread alone would panic in. -/
theorem exec_fine {g : Config} {ops : List Op} {o : Orderer} (hr : Orderer.run g.S g.bufferSize g.blockSize {} (writes ops) = .ok o)
    {s : ParSystem} (hs : Steps g (init ops) s) {c : WriteCall} {rest : List OrderCmd} (hq : s.orderQueue = .exec c :: rest) :
    s.orderer.exec g.S g.bufferSize g.blockSize c ≠ .panic := by
  intro ho
  have hp := (steps_phase hs).1
  have key : ∀ pre post, writes ops = pre ++ c :: post →
      ∀ o1, Orderer.run g.S g.bufferSize g.blockSize {} pre = .ok o1 → o1.exec g.S g.bufferSize g.blockSize c = .panic → False := by
    intro pre post he o1 h1 h2
    rw [he, run_append, h1] at hr
    simp [run_cons, h2] at hr
  cases hp with
  | «open» pre h0 _ hq' hc hpr => exact key pre (execs rest ++ writes s.ops) (by rw [hc, hq]; simp [execs]) _ hpr ho
  | closing pre cs h1 _ hq' hops hc hpr =>
    cases cs with
    | nil => simp [hq] at hq'
    | cons c' cs =>
      simp [hq] at hq'
      obtain ⟨rfl, rfl⟩ := hq'
      exact key pre cs hc _ hpr ho
  | flushing o1 h1 _ hq' => simp [hq] at hq'
  | flushed o1 h1 h4 _ hq' => simp [hq] at hq'

/-- When there is nothing to write and `write_header` is not called, the pools stay empty. -/
theorem steps_nothing {g : Config} (hF : 0 < g.blockSize) {ops : List Op} (hh : Op.header ∉ ops) (hn : submitted (writes ops) = []) {s : ParSystem}
    (hs : Steps g (init ops) s) : s.failed = false ∧ s.queue = [] ∧ s.encoding = [] ∧ s.writeQueue = [] := by
  have hr := run_nothing (S := g.S) (B := g.bufferSize) (F := g.blockSize) _ hn
  have hl : Orderer.FlushAll g.S g.blockSize {} {} := by
    unfold Orderer.FlushAll
    have : g.S.sort ({} : Orderer).buffer = [] := List.perm_nil.mp (g.S.perm [])
    rw [this]
    exact .done _ rfl
  have hbl : ∀ {s}, Steps g (init ops) s → s.orderer.blocks = [] := fun h => List.prefix_nil.mp (phase_prefix hF (steps_phase h).1 hr hl)
  induction hs with
  | refl => exact ⟨rfl, rfl, rfl, rfl⟩
  | tail h hs ih =>
    obtain ⟨i1, i2, i3, i4⟩ := ih
    cases hs with
    | header ops' hf h0 ho hc => exact absurd (by simp [ho]) (no_header hh h).1
    | execPanic c rest hf hq hfl hrd ho => exact absurd ho (exec_fine hr h hq)
    | submit b hf hb hl' hc => simp [hbl h] at hb
    | take l r b hf hb => simp [i2] at hb
    | encode l r k es hf hb => simp [i3] at hb
    | writeHeader rest hf hb => simp [i4] at hb
    | write k b rest w hf hb => simp [i4] at hb
    | wait k b rest hf hb => simp [i4] at hb
    | writePanic k b rest hf hb => simp [i4] at hb
    | call | close | joinOrdering | joinEncoding | joinWriting | exec | flushStart | flushRound | flushEnd => exact ⟨i1, i2, i3, i4⟩

/-- A call of `write_header` is yet to come, waits or is done. -/
theorem header_somewhere {g : Config} {ops : List Op} (hh : Op.header ∈ ops) {s : ParSystem} (hs : Steps g (init ops) s) :
    Op.header ∈ s.ops ∨ WriteCmd.header ∈ s.writeQueue ∨ s.writer.isSome = true := by
  induction hs with
  | refl => exact .inl hh
  | tail _ hs ih =>
    cases hs with
    | header ops' hf h0 ho hc => exact .inr (.inl (by simp))
    | call c ops' hf h0 ho hc =>
      rcases ih with h | h | h
      · left; simpa [ho] using h
      · exact .inr (.inl h)
      · exact .inr (.inr h)
    | encode l r k es hf hb hl hc =>
      rcases ih with h | h | h
      · exact .inl h
      · exact .inr (.inl (by simp [h]))
      · exact .inr (.inr h)
    | writeHeader rest hf hb => exact .inr (.inr rfl)
    | write k b rest w hf hb hw => exact .inr (.inr rfl)
    | wait k b rest hf hb hw hn =>
      rcases ih with h | h | h
      · exact .inl h
      · exact .inr (.inl (by simpa [hb] using h))
      · exact .inr (.inr h)
    | close | joinOrdering | joinEncoding | joinWriting | exec | execPanic | flushStart | flushRound | flushEnd | submit | take | writePanic => exact ih

/-- Nothing has left the ordering thread, and `write_header` is among the calls to come. -/
structure Early (post : List Op) (s : ParSystem) : Prop where
  ops : ∃ p, s.ops = p ++ .header :: post
  stage : s.stage = 0
  queue : s.queue = []
  encoding : s.encoding = []
  write : s.writeQueue = []

/-- A program that calls `write_header` before a block is made never writes a block before the header. -/
def HeadedLate (post : List Op) (s : ParSystem) : Prop :=
  s.writer.isSome = true ∨ (∃ r, s.writeQueue = .header :: r) ∨ Early post s

theorem step_headedLate {g : Config} {pre post : List Op} {o : Orderer} (hr : Orderer.run g.S g.bufferSize g.blockSize {} (writes pre) = .ok o)
    (hb : o.blocks = []) {s t : ParSystem} (hp : Phase g (writes (pre ++ .header :: post)) s) (h : HeadedLate post s) (hs : Step g s t) : HeadedLate post t := by
  rcases h with h | ⟨r, h⟩ | ⟨⟨p, h1⟩, h2, h3, h4, h5⟩
  · left
    cases hs <;> first | exact h | rfl
  · cases hs with
    | header ops' hf h0 ho hc => exact .inr (.inl ⟨r ++ [.header], by simp [h]⟩)
    | encode l r' k es hf hb hl hc => exact .inr (.inl ⟨r ++ [.blob k ((FileBlock.data es).serialize g.z g.c)], by simp [h]⟩)
    | writeHeader rest hf hb => left; rfl
    | write k b rest w hf hb hw => left; rfl
    | wait k b rest hf hb hw hn => simp [h] at hb
    | writePanic k b rest hf hb hw hn => simp [h] at hb
    | call | close | joinOrdering | joinEncoding | exec | execPanic | flushStart | flushRound | flushEnd | submit | take => exact .inr (.inl ⟨r, h⟩)
    | joinWriting hf h3 hq => exact .inr (.inl ⟨r, h⟩)
  · have hob : s.orderer.blocks = [] := by
      cases hp with
      | «open» pre' h0 hfl hq hc hr' =>
        have e : writes pre = pre' ++ (execs s.orderQueue ++ writes p) := by
          rw [h1, writes_append, writes_append] at hc
          exact List.append_cancel_right (hc.trans (by simp [List.append_assoc]))
        rw [e, run_append, hr'] at hr
        have : s.orderer.blocks <+: o.blocks := by
          exact run_prefix _ hr
        rw [hb] at this
        exact List.prefix_nil.mp this
      | closing pre cs h1 => omega
      | flushing o h1 => omega
      | flushed o h1 => omega
    cases hs with
    | header ops' hf h0 ho hc => exact .inr (.inl ⟨[], by simp [h5]⟩)
    | call c ops' hf h0 ho hc =>
      cases p with
      | nil => simp [h1] at ho
      | cons x p =>
        rw [h1] at ho
        simp only [List.cons_append, List.cons.injEq] at ho
        exact .inr (.inr ⟨⟨p, ho.2.symm⟩, h2, h3, h4, h5⟩)
    | close hf h0 ho hc => simp [h1] at ho
    | joinOrdering hf h1 => omega
    | joinEncoding hf h1 => omega
    | joinWriting hf h1 => omega
    | exec c rest o hf hq => exact .inr (.inr ⟨⟨p, h1⟩, h2, h3, h4, h5⟩)
    | execPanic c rest hf hq => exact .inr (.inr ⟨⟨p, h1⟩, h2, h3, h4, h5⟩)
    | flushStart rest hf hq => exact .inr (.inr ⟨⟨p, h1⟩, h2, h3, h4, h5⟩)
    | flushRound hf hfl => exact .inr (.inr ⟨⟨p, h1⟩, h2, h3, h4, h5⟩)
    | flushEnd hf hfl => exact .inr (.inr ⟨⟨p, h1⟩, h2, h3, h4, h5⟩)
    | submit b hf hb => simp [hob] at hb
    | take l r b hf hb => simp [h3] at hb
    | encode l r k es hf hb => simp [h4] at hb
    | writeHeader rest hf hb => simp [h5] at hb
    | write k b rest w hf hb => simp [h5] at hb
    | wait k b rest hf hb => simp [h5] at hb
    | writePanic k b rest hf hb => simp [h5] at hb

theorem steps_headedLate {g : Config} {pre post : List Op} {o : Orderer} (hr : Orderer.run g.S g.bufferSize g.blockSize {} (writes pre) = .ok o)
    (hb : o.blocks = []) {s : ParSystem} (hs : Steps g (init (pre ++ .header :: post)) s) : HeadedLate post s := by
  induction hs with
  | refl => exact .inr (.inr ⟨⟨pre, rfl⟩, rfl, rfl, rfl, rfl⟩)
  | tail h hs ih => exact step_headedLate hr hb (steps_phase h).1 ih hs

/-- No thread panics when all calls succeed and `write_header` is called before a block is made. -/
theorem never_failed_late {g : Config} {pre post : List Op} {o1 o : Orderer} (hr1 : Orderer.run g.S g.bufferSize g.blockSize {} (writes pre) = .ok o1)
    (hb : o1.blocks = []) (hr : Orderer.run g.S g.bufferSize g.blockSize {} (writes (pre ++ .header :: post)) = .ok o)
    {s : ParSystem} (hs : Steps g (init (pre ++ .header :: post)) s) : s.failed = false := by
  induction hs with
  | refl => rfl
  | @tail s1 _ h hs ih =>
    cases hs with
    | writePanic k b rest hf hb' hw hn =>
      exfalso
      rcases steps_headedLate hr1 hb h with h | ⟨r, h⟩ | h
      · simp [hw] at h
      · simp [hb'] at h
      · simp [h.write] at hb'
    | execPanic c rest hf hq hfl hrd ho => exact absurd ho (exec_fine hr h hq)
    | header | call | close | joinOrdering | joinEncoding | joinWriting | exec | flushStart | flushRound | flushEnd | submit | take | encode | writeHeader | write | wait =>
      assumption

/-- Once the header is written and all calls succeed, nothing can panic any more. -/
theorem never_failed_after {g : Config} {ops : List Op} {o : Orderer} (hr : Orderer.run g.S g.bufferSize g.blockSize {} (writes ops) = .ok o)
    {s t : ParSystem} (hs : Steps g (init ops) s) (hw : s.writer.isSome = true) (hf : s.failed = false) (ht : Steps g s t) :
    t.writer.isSome = true ∧ t.failed = false := by
  induction ht with
  | refl => exact ⟨hw, hf⟩
  | @tail s1 _ h hst ih =>
    obtain ⟨i1, i2⟩ := ih
    cases hst with
    | writePanic k b rest hf hb' hw' hn => simp [hw'] at i1
    | execPanic c rest hf hq hfl hrd ho => exact absurd ho (exec_fine hr (hs.trans h) hq)
    | writeHeader rest hf hb => exact ⟨rfl, i2⟩
    | write k b rest w hf hb hw => exact ⟨rfl, i2⟩
    | header | call | close | joinOrdering | joinEncoding | joinWriting | exec | flushStart | flushRound | flushEnd | submit | take | encode | wait =>
      exact ⟨i1, i2⟩

/-- From every state some schedule leads to the return of `close` or to a panic. -/
theorem ends {g : Config} (hF : 0 < g.blockSize) (hq : 0 < g.cap) (ht : 0 < g.threads) {ops : List Op} {s : ParSystem} (hs : Steps g (init ops) s) :
    ∃ t, Steps g s t ∧ (Closed t ∨ Panicked t) := by
  induction hw : work s using Nat.strong_induction_on generalizing s with
  | _ n ih =>
    by_cases hc : Closed s
    · exact ⟨s, .refl, .inl hc⟩
    · by_cases hf : s.failed = true
      · exact ⟨s, .refl, .inr hf⟩
      · obtain ⟨hp, hi⟩ := steps_phase hs
        obtain ⟨t, hst⟩ := progress hF hq ht hp hi (by simpa using hf) hc
        have hlt := step_work hF hi hst
        obtain ⟨u, h1, h2⟩ := ih _ (hw ▸ hlt) (hs.tail hst) rfl
        exact ⟨u, .head hst h1, h2⟩

/-- The ordering thread keeps up with the caller: the calls before the one that makes the first block. -/
theorem keep_up {g : Config} (hcap : 0 < g.cap) : ∀ (p rest : List Op), Op.header ∉ p → ∀ {s : ParSystem} {o : Orderer}, s.ops = p ++ rest → s.failed = false →
    s.stage = 0 → s.orderQueue = [] → s.flushing = false → s.sent = 0 → s.orderer.blocks = [] → s.queue = [] → s.encoding = [] → s.writeQueue = [] → s.held = [] →
    s.next = 1 → s.writer = none → s.orderer.run g.S g.bufferSize g.blockSize (writes p) = .ok o → o.blocks ≠ [] →
    ∃ t b bs, Steps g s t ∧ t.failed = false ∧ t.stage = 0 ∧ t.orderer.blocks = b :: bs ∧ t.sent = 0 ∧ t.queue = [] ∧ t.encoding = [] ∧ t.writeQueue = [] ∧
      t.held = [] ∧ t.next = 1 ∧ t.writer = none := by
  intro p rest
  induction p with
  | nil =>
    intro _ s o _ _ _ _ _ _ hb _ _ _ _ _ _ hr hn
    simp [writes, callsOf, Orderer.run] at hr
    subst hr
    exact absurd hb hn
  | cons op p ih =>
    intro hh s o ho hf h0 hoq hfl hse hb hqu he hwq hhe hne hwr hr hn
    cases op with
    | header => simp at hh
    | write c =>
      have e : writes (Op.write c :: p) = c :: writes p := rfl
      rw [e, run_cons, Out.bind_eq_ok] at hr
      obtain ⟨o1, e1, e2⟩ := hr
      have st1 := Step.call (g := g) s c (p ++ rest) hf h0 ho (by simp [hoq, hcap])
      have st2 := Step.exec (g := g) (s := { s with ops := p ++ rest, orderQueue := s.orderQueue ++ [.exec c] }) (c := c) (rest := []) (o := o1) hf
        (by simp [hoq]) hfl (by simp [Ready, hse, hb]) e1
      cases hb1 : o1.blocks with
      | cons b bs => exact ⟨_, b, bs, (Relation.ReflTransGen.single st1).tail st2, hf, h0, hb1, hse, hqu, he, hwq, hhe, hne, hwr⟩
      | nil =>
        obtain ⟨t, b, bs, k1, k2⟩ := ih (by simp at hh; exact hh) (s := { s with ops := p ++ rest, orderQueue := [], orderer := o1 }) (o := o) rfl hf h0 rfl hfl hse hb1
          hqu he hwq hhe hne hwr e2 hn
        exact ⟨t, b, bs, .head st1 (.head st2 k1), k2⟩

/-- A block made before the call of `write_header` may be written before it: then the writing thread panics. -/
theorem late_panics {g : Config} (hcap : 0 < g.cap) (hthr : 0 < g.threads) {pre post : List Op} (hh : Op.header ∉ pre) {o : Orderer}
    (hr : Orderer.run g.S g.bufferSize g.blockSize {} (writes pre) = .ok o) (hb : o.blocks ≠ []) :
    ∃ s, Steps g (init (pre ++ post)) s ∧ Panicked s := by
  obtain ⟨t, b, bs, k1, k2, k3, k4, k5, k6, k7, k8, k9, k10, k11⟩ := keep_up hcap pre post hh (s := init (pre ++ post)) (o := o) rfl rfl rfl rfl rfl rfl rfl rfl rfl rfl rfl rfl rfl hr hb
  have st1 := Step.submit (g := g) t b k2 (by simp [k4, k5]) (by omega) (by simp [k6, hcap])
  have st2 := Step.take (g := g) (l := []) (r := []) (b := (t.sent + 1, b)) (s := { t with sent := t.sent + 1, queue := t.queue ++ [(t.sent + 1, b)] }) k2 (by simp [k6])
    (by simp [k7, hthr])
  have st3 := Step.encode (g := g) (s := { t with sent := t.sent + 1, queue := [] ++ [], encoding := t.encoding ++ [(t.sent + 1, b)] })
      (l := t.encoding) (r := []) (k := t.sent + 1) (es := b) k2 rfl (by simp only; omega) (by simp [k8, hcap])
  have st4 := Step.writePanic (g := g)
      (s := { t with sent := t.sent + 1, queue := [] ++ [], encoding := t.encoding ++ []
                     writeQueue := t.writeQueue ++ [.blob (t.sent + 1) ((FileBlock.data b).serialize g.z g.c)] })
      (k := t.sent + 1) (b := (FileBlock.data b).serialize g.z g.c) (rest := []) k2 (by simp [k8]) k11 (by simp [k5, k9, k10, mapInsert, mapRemove])
  exact ⟨_, (((k1.tail st1).tail st2).tail st3).tail st4, rfl⟩

/-- The caller may be ahead of the other threads by as many calls as fit into the queue. -/
theorem run_ahead {g : Config} : ∀ (p rest : List Op), Op.header ∉ p → ∀ {s : ParSystem}, s.ops = p ++ rest → s.failed = false → s.stage = 0 →
    s.orderQueue.length + p.length ≤ g.cap → s.writeQueue = [] → ∃ t, Steps g s t ∧ t.ops = rest ∧ t.failed = false ∧ t.stage = 0 ∧ t.writeQueue = [] := by
  intro p rest
  induction p with
  | nil => intro _ s ho hf h0 hl hw; exact ⟨s, .refl, ho, hf, h0, hw⟩
  | cons op p ih =>
    intro hh s ho hf h0 hl hw
    cases op with
    | header => simp at hh
    | write c =>
      simp only [List.length_cons] at hl
      have st1 := Step.call (g := g) s c (p ++ rest) hf h0 ho (by omega)
      obtain ⟨t, k1, k2⟩ := ih (by simp at hh; exact hh) (s := { s with ops := p ++ rest, orderQueue := s.orderQueue ++ [.exec c] }) rfl hf h0 (by simp; omega) hw
      exact ⟨t, .head st1 k1, k2⟩

end ParSystem
end OsmIo
