import Verif.Model.ParallelSystem
import Verif.Lemmas.Orderer
import Verif.Lemmas.Pipeline
import Verif.Spec.ParallelSystem
/-! # Lemmas on the parallel writer as a whole -/
set_option linter.unusedSimpArgs false
set_option linter.flexible false
namespace OsmIo
open Spec

namespace ParSystem

/-- The calls among the operations of a program. -/
abbrev writes (ops : List Op) : List WriteCall := callsOf ops

/-- The calls among the commands of the ordering pool. -/
def execs (q : List OrderCmd) : List WriteCall := q.filterMap fun | .flush => none | .exec c => some c

/-- The blobs in the queue of the writing pool. -/
def blobs (q : List WriteCmd) : List (Nat × Blob) := q.filterMap fun | .header => none | .blob k b => some (k, b)

/-- Where the ordering thread is in its program, given all calls the program makes. -/
inductive Phase (g : Config) (calls : List WriteCall) (s : ParSystem) : Prop
  | open (pre) (h0 : s.stage = 0) (hfl : s.flushing = false) (hq : .flush ∉ s.orderQueue)
      (hc : calls = pre ++ execs s.orderQueue ++ writes s.ops) (hr : Orderer.run g.S g.bufferSize g.blockSize {} pre = .ok s.orderer)
  | closing (pre cs) (h1 : s.stage = 1) (hfl : s.flushing = false) (hq : s.orderQueue = cs.map .exec ++ [.flush]) (ho : s.ops = [])
      (hc : calls = pre ++ cs) (hr : Orderer.run g.S g.bufferSize g.blockSize {} pre = .ok s.orderer)
  | flushing (o) (h1 : s.stage = 1) (hfl : s.flushing = true) (hq : s.orderQueue = []) (ho : s.ops = [])
      (hr : Orderer.run g.S g.bufferSize g.blockSize {} calls = .ok o)
      (hl : ∀ x, Orderer.FlushLoop g.blockSize s.orderer x → o.FlushAll g.S g.blockSize x)
  | flushed (o) (h1 : 1 ≤ s.stage) (h4 : s.stage ≤ 4) (hfl : s.flushing = false) (hq : s.orderQueue = []) (ho : s.ops = [])
      (hr : Orderer.run g.S g.bufferSize g.blockSize {} calls = .ok o) (hl : o.FlushAll g.S g.blockSize s.orderer)

theorem execs_append (a b : List OrderCmd) : execs (a ++ b) = execs a ++ execs b := by simp [execs]

theorem execs_of_no_flush (q : List OrderCmd) (h : .flush ∉ q) : (execs q).map .exec = q := by
  induction q with
  | nil => rfl
  | cons x q ih =>
    cases x with
    | flush => simp at h
    | exec c =>
      simp only [List.mem_cons, not_or] at h
      have := ih h.2
      simp only [execs] at this
      simp [execs, this]

theorem init_phase (g : Config) (ops : List Op) : Phase g (writes ops) (init ops) :=
  .open [] rfl rfl (by simp [init]) (by simp [init, execs]) rfl

theorem run_snoc {S : StdSort} {B F : Nat} {pre : List WriteCall} {o o' : Orderer} {c : WriteCall} (h : Orderer.run S B F {} pre = .ok o)
    (h' : o.exec S B F c = .ok o') : Orderer.run S B F {} (pre ++ [c]) = .ok o' := by
  rw [run_append, h]
  show Orderer.run S B F o [c] = _
  rw [run_cons, h']
  rfl

theorem step_phase {g : Config} {calls : List WriteCall} {s t : ParSystem} (h : Phase g calls s) (hs : Step g s t) : Phase g calls t := by
  cases hs with
  | header ops hf h0 ho hc =>
    cases h with
    | «open» pre _ hfl hq hcs hr => exact .open pre h0 hfl hq (by simp [hcs, ho, writes, callsOf]) hr
    | closing pre cs h1 => omega
    | flushing o h1 => omega
    | flushed o h1 => omega
  | call c ops hf h0 ho hc =>
    cases h with
    | «open» pre _ hfl hq hcs hr =>
      refine .open pre h0 hfl (by simpa using hq) ?_ hr
      simp [hcs, ho, writes, callsOf, execs_append]
      simp [execs]
    | closing pre cs h1 => omega
    | flushing o h1 => omega
    | flushed o h1 => omega
  | close hf h0 ho hc =>
    cases h with
    | «open» pre _ hfl hq hcs hr =>
      exact .closing pre (execs s.orderQueue) rfl hfl (by simp [execs_of_no_flush _ hq]) ho (by simpa [ho, writes, callsOf] using hcs) hr
    | closing pre cs h1 => omega
    | flushing o h1 => omega
    | flushed o h1 => omega
  | joinOrdering hf h1 hq hfl hr =>
    cases h with
    | «open» pre h0 => omega
    | closing pre cs _ _ hq' => simp [hq] at hq'
    | flushing o _ hfl' => simp [hfl] at hfl'
    | flushed o h1' h4 hfl' hq' ho hr hl => exact .flushed o (by simp) (by simp) hfl' hq' ho hr hl
  | joinEncoding hf h2 hq he =>
    cases h with
    | «open» pre h0 => omega
    | closing pre cs h1 => omega
    | flushing o h1 => omega
    | flushed o h1' h4 hfl' hq' ho hr hl => exact .flushed o (by simp) (by simp) hfl' hq' ho hr hl
  | joinWriting hf h3 hq =>
    cases h with
    | «open» pre h0 => omega
    | closing pre cs h1 => omega
    | flushing o h1 => omega
    | flushed o h1' h4 hfl' hq' ho hr hl => exact .flushed o (by simp) (by simp) hfl' hq' ho hr hl
  | exec c rest o hf hq hfl hr ho =>
    cases h with
    | «open» pre h0 _ hq' hcs hr =>
      refine .open (pre ++ [c]) h0 hfl (by simp [hq] at hq'; exact hq') ?_ (run_snoc hr ho)
      simp [hcs, hq, execs]
    | closing pre cs h1 _ hq' hops hcs hr =>
      cases cs with
      | nil => simp [hq] at hq'
      | cons c' cs =>
        simp [hq] at hq'
        obtain ⟨rfl, rfl⟩ := hq'
        exact .closing (pre ++ [c]) cs h1 hfl rfl hops (by simp [hcs]) (run_snoc hr ho)
    | flushing o _ hfl' => simp [hfl] at hfl'
    | flushed o h1' h4 hfl' hq' => simp [hq] at hq'
  | execPanic c rest hf hq hfl hr ho =>
    cases h with
    | «open» pre h0 hfl' hq' hcs hr => exact .open pre h0 hfl' hq' hcs hr
    | closing pre cs h1 hfl' hq' hops hcs hr => exact .closing pre cs h1 hfl' hq' hops hcs hr
    | flushing o h1 hfl' hq' hops hr hl => exact .flushing o h1 hfl' hq' hops hr hl
    | flushed o h1 h4 hfl' hq' hops hr hl => exact .flushed o h1 h4 hfl' hq' hops hr hl
  | flushStart rest hf hq hfl hr =>
    cases h with
    | «open» pre h0 _ hq' hcs hr => simp [hq] at hq'
    | closing pre cs h1 _ hq' hops hcs hr =>
      cases cs with
      | cons c' cs => simp [hq] at hq'
      | nil =>
        simp [hq] at hq'
        subst hq'
        simp at hcs
        subst hcs
        exact .flushing s.orderer h1 rfl rfl hops hr fun x hx => hx
    | flushing o _ hfl' => simp [hfl] at hfl'
    | flushed o h1' h4 hfl' hq' => simp [hq] at hq'
  | flushRound hf hfl hr hb =>
    cases h with
    | «open» pre h0 hfl' => simp [hfl] at hfl'
    | closing pre cs h1 hfl' => simp [hfl] at hfl'
    | flushing o h1 hfl' hq' hops hr hl => exact .flushing o h1 hfl hq' hops hr fun x hx => hl x (.step _ _ hb hx)
    | flushed o h1' h4 hfl' => simp [hfl] at hfl'
  | flushEnd hf hfl hr hb =>
    cases h with
    | «open» pre h0 hfl' => simp [hfl] at hfl'
    | closing pre cs h1 hfl' => simp [hfl] at hfl'
    | flushing o h1 hfl' hq' hops hr hl => exact .flushed o (by simp [h1]) (by simp [h1]) rfl hq' hops hr (hl _ (.done _ hb))
    | flushed o h1' h4 hfl' => simp [hfl] at hfl'
  | submit b hf hb hl hc =>
    cases h with
    | «open» pre h0 hfl' hq' hcs hr => exact .open pre h0 hfl' hq' hcs hr
    | closing pre cs h1 hfl' hq' hops hcs hr => exact .closing pre cs h1 hfl' hq' hops hcs hr
    | flushing o h1 hfl' hq' hops hr hl => exact .flushing o h1 hfl' hq' hops hr hl
    | flushed o h1 h4 hfl' hq' hops hr hl => exact .flushed o h1 h4 hfl' hq' hops hr hl
  | take l r b hf hb ht =>
    cases h with
    | «open» pre h0 hfl' hq' hcs hr => exact .open pre h0 hfl' hq' hcs hr
    | closing pre cs h1 hfl' hq' hops hcs hr => exact .closing pre cs h1 hfl' hq' hops hcs hr
    | flushing o h1 hfl' hq' hops hr hl => exact .flushing o h1 hfl' hq' hops hr hl
    | flushed o h1 h4 hfl' hq' hops hr hl => exact .flushed o h1 h4 hfl' hq' hops hr hl
  | encode l r k es hf hb hl hc =>
    cases h with
    | «open» pre h0 hfl' hq' hcs hr => exact .open pre h0 hfl' hq' hcs hr
    | closing pre cs h1 hfl' hq' hops hcs hr => exact .closing pre cs h1 hfl' hq' hops hcs hr
    | flushing o h1 hfl' hq' hops hr hl => exact .flushing o h1 hfl' hq' hops hr hl
    | flushed o h1 h4 hfl' hq' hops hr hl => exact .flushed o h1 h4 hfl' hq' hops hr hl
  | writeHeader rest hf hb =>
    cases h with
    | «open» pre h0 hfl' hq' hcs hr => exact .open pre h0 hfl' hq' hcs hr
    | closing pre cs h1 hfl' hq' hops hcs hr => exact .closing pre cs h1 hfl' hq' hops hcs hr
    | flushing o h1 hfl' hq' hops hr hl => exact .flushing o h1 hfl' hq' hops hr hl
    | flushed o h1 h4 hfl' hq' hops hr hl => exact .flushed o h1 h4 hfl' hq' hops hr hl
  | write k b rest w hf hb hw =>
    cases h with
    | «open» pre h0 hfl' hq' hcs hr => exact .open pre h0 hfl' hq' hcs hr
    | closing pre cs h1 hfl' hq' hops hcs hr => exact .closing pre cs h1 hfl' hq' hops hcs hr
    | flushing o h1 hfl' hq' hops hr hl => exact .flushing o h1 hfl' hq' hops hr hl
    | flushed o h1 h4 hfl' hq' hops hr hl => exact .flushed o h1 h4 hfl' hq' hops hr hl
  | wait k b rest hf hb hw hn =>
    cases h with
    | «open» pre h0 hfl' hq' hcs hr => exact .open pre h0 hfl' hq' hcs hr
    | closing pre cs h1 hfl' hq' hops hcs hr => exact .closing pre cs h1 hfl' hq' hops hcs hr
    | flushing o h1 hfl' hq' hops hr hl => exact .flushing o h1 hfl' hq' hops hr hl
    | flushed o h1 h4 hfl' hq' hops hr hl => exact .flushed o h1 h4 hfl' hq' hops hr hl
  | writePanic k b rest hf hb hw hn =>
    cases h with
    | «open» pre h0 hfl' hq' hcs hr => exact .open pre h0 hfl' hq' hcs hr
    | closing pre cs h1 hfl' hq' hops hcs hr => exact .closing pre cs h1 hfl' hq' hops hcs hr
    | flushing o h1 hfl' hq' hops hr hl => exact .flushing o h1 hfl' hq' hops hr hl
    | flushed o h1 h4 hfl' hq' hops hr hl => exact .flushed o h1 h4 hfl' hq' hops hr hl

/-! ## The stages of `close` -/

/-- What the joins of `close` guarantee. -/
structure Staged (s : ParSystem) : Prop where
  sent : s.sent ≤ s.orderer.blocks.length
  ordering : 2 ≤ s.stage → s.Ready
  encoding : 3 ≤ s.stage → s.queue = [] ∧ s.encoding = []
  writing : 4 ≤ s.stage → s.writeQueue = []

theorem exec_blocks {S : StdSort} {B F : Nat} {o o' : Orderer} {c : WriteCall} (h : o.exec S B F c = .ok o') : o.blocks <+: o'.blocks := by
  obtain ⟨-, rfl⟩ := exec_ok h
  obtain ⟨new, h, -⟩ := checkFull_perm S B F { o with buffer := o.buffer ++ submitted [c] }
  exact ⟨new, h.symm⟩

theorem step_staged {g : Config} {calls : List WriteCall} {s t : ParSystem} (h : Phase g calls s) (hi : Staged s) (hs : Step g s t) : Staged t := by
  obtain ⟨i1, i2, i3, i4⟩ := hi
  cases hs with
  | header ops hf h0 ho hc => exact ⟨i1, i2, i3, fun h => by simp [h0] at h⟩
  | call c ops hf h0 ho hc => exact ⟨i1, i2, i3, i4⟩
  | close hf h0 ho hc => exact ⟨i1, fun h => by simp at h, fun h => by simp at h, fun h => by simp at h⟩
  | joinOrdering hf h1 hq hfl hr => exact ⟨i1, fun _ => hr, fun h => by simp at h, fun h => by simp at h⟩
  | joinEncoding hf h2 hq he => exact ⟨i1, fun _ => i2 (by omega), fun _ => ⟨hq, he⟩, fun h => by simp at h⟩
  | joinWriting hf h3 hq => exact ⟨i1, fun _ => i2 (by omega), fun _ => i3 (by omega), fun _ => hq⟩
  | exec c rest o hf hq hfl hr ho =>
    have hst : s.stage < 2 := by
      cases h with
      | «open» pre h0 => omega
      | closing pre cs h1 => omega
      | flushing o h1 => omega
      | flushed o _ _ _ hq' => simp [hq] at hq'
    have := (exec_blocks ho).length_le
    exact ⟨le_trans i1 this, fun h => absurd h (by simp; omega), i3, i4⟩
  | execPanic c rest hf hq hfl hr ho => exact ⟨i1, i2, i3, i4⟩
  | flushStart rest hf hq hfl hr => exact ⟨i1, i2, i3, i4⟩
  | flushRound hf hfl hr hb =>
    have hst : s.stage < 2 := by
      cases h with
      | «open» pre h0 => omega
      | closing pre cs h1 => omega
      | flushing o h1 => omega
      | flushed o _ _ hfl' => simp [hfl] at hfl'
    refine ⟨?_, fun h => absurd h (by simp; omega), i3, i4⟩
    simp [Orderer.emit]; omega
  | flushEnd hf hfl hr hb => exact ⟨i1, i2, i3, i4⟩
  | submit b hf hb hl hc =>
    refine ⟨?_, fun h => absurd h (by simp; omega), fun h => absurd h (by simp; omega), i4⟩
    obtain ⟨hlt, -⟩ := List.getElem?_eq_some_iff.mp hb
    exact hlt
  | take l r b hf hb ht =>
    refine ⟨i1, i2, fun h => ?_, i4⟩
    have := (i3 h).1
    simp [hb] at this
  | encode l r k es hf hb hl hc =>
    exact ⟨i1, i2, fun h => absurd h (by simp; omega), fun h => absurd h (by simp; omega)⟩
  | writeHeader rest hf hb =>
    refine ⟨i1, i2, i3, fun h => ?_⟩
    have := i4 h
    simp [hb] at this
  | write k b rest w hf hb hw =>
    refine ⟨i1, i2, i3, fun h => ?_⟩
    have := i4 h
    simp [hb] at this
  | wait k b rest hf hb hw hn =>
    refine ⟨i1, i2, i3, fun h => ?_⟩
    have := i4 h
    simp [hb] at this
  | writePanic k b rest hf hb hw hn => exact ⟨i1, i2, i3, i4⟩

theorem init_staged (ops : List Op) : Staged (init ops) :=
  ⟨by simp [init], fun h => by simp [init] at h, fun h => by simp [init] at h, fun h => by simp [init] at h⟩

theorem steps_phase {g : Config} {ops : List Op} {s : ParSystem} (hs : Steps g (init ops) s) : Phase g (writes ops) s ∧ Staged s := by
  induction hs with
  | refl => exact ⟨init_phase g ops, init_staged ops⟩
  | tail _ hs ih => exact ⟨step_phase ih.1 hs, step_staged ih.1 ih.2 hs⟩

/-! ## Refinement of the pools -/

/-- The state of the pools behind the ordering thread, when in the end it will have made `blocks`. -/
def pools (g : Config) (blocks : List (List Element)) (s : ParSystem) : Pipeline :=
  { todo := ((blocks.zipIdx 1).map fun x => (x.2, x.1)).drop s.sent
    queue := s.queue, encoding := s.encoding, writeQueue := blobs s.writeQueue, held := s.held, next := s.next
    writer := s.writer.getD ((Writer.fromFileInfo g.info g.c).writeHeader g.z) }

theorem phase_prefix {g : Config} (hF : 0 < g.blockSize) {calls : List WriteCall} {s : ParSystem} (h : Phase g calls s) {o o' : Orderer}
    (hr : Orderer.run g.S g.bufferSize g.blockSize {} calls = .ok o) (hl : o.FlushAll g.S g.blockSize o') : s.orderer.blocks <+: o'.blocks := by
  have hp : o.blocks <+: o'.blocks := by
    obtain ⟨-, new, hn, -⟩ := flushLoop_perm hl
    exact ⟨new, hn.symm⟩
  have hpre : ∀ pre post, calls = pre ++ post → Orderer.run g.S g.bufferSize g.blockSize {} pre = .ok s.orderer → s.orderer.blocks <+: o'.blocks := by
    rintro pre post rfl hpr
    rw [run_append, hpr] at hr
    obtain ⟨new, hn, -⟩ := run_perm (s := s.orderer) (s' := o) hr
    exact List.IsPrefix.trans ⟨new, hn.symm⟩ hp
  cases h with
  | «open» pre h0 hfl hq hc hpr => exact hpre pre _ (by rw [hc, List.append_assoc]) hpr
  | closing pre cs h1 hfl hq ho hc hpr => exact hpre pre cs hc hpr
  | flushing o1 h1 hfl hq ho hr1 hl1 =>
    rw [hr] at hr1
    cases hr1
    obtain ⟨x, hx⟩ := flushLoop_exists hF s.orderer
    have := flushLoop_det (hl1 x hx) hl
    subst this
    obtain ⟨-, new, hn, -⟩ := flushLoop_perm hx
    exact ⟨new, hn.symm⟩
  | flushed o1 h1 h4 hfl hq ho hr1 hl1 =>
    rw [hr] at hr1
    cases hr1
    rw [flushLoop_det hl1 hl]

theorem step_pools {g : Config} {blocks : List (List Element)} {s t : ParSystem} (hp : s.orderer.blocks <+: blocks) (hs : Step g s t) :
    pools g blocks t = pools g blocks s ∨ Pipeline.Step g.z g.c g.threads (pools g blocks s) (pools g blocks t) := by
  cases hs with
  | header ops hf h0 ho hc => left; simp [pools, blobs]
  | call c ops hf h0 ho hc => left; rfl
  | close hf h0 ho hc => left; rfl
  | joinOrdering hf h1 hq hfl hr => left; rfl
  | joinEncoding hf h2 hq he => left; rfl
  | joinWriting hf h3 hq => left; rfl
  | exec c rest o hf hq hfl hr ho => left; rfl
  | execPanic c rest hf hq hfl hr ho => left; rfl
  | flushStart rest hf hq hfl hr => left; rfl
  | flushRound hf hfl hr hb => left; rfl
  | flushEnd hf hfl hr hb => left; rfl
  | submit b hf hb hl hc =>
    right
    have hb' : blocks[s.sent]? = some b := by
      obtain ⟨new, rfl⟩ := hp
      obtain ⟨hlt, -⟩ := List.getElem?_eq_some_iff.mp hb
      rw [List.getElem?_append_left hlt, hb]
    refine Pipeline.Step.submit (pools g blocks s) (s.sent + 1, b) (((blocks.zipIdx 1).map fun x => (x.2, x.1)).drop (s.sent + 1)) ?_
    simp only [pools]
    have hg : ((blocks.zipIdx 1).map fun x => (x.2, x.1))[s.sent]? = some (s.sent + 1, b) := by
      simp [List.getElem?_zipIdx, hb', Nat.add_comm]
    obtain ⟨hlt, he⟩ := List.getElem?_eq_some_iff.mp hg
    rw [List.drop_eq_getElem_cons hlt, he]
  | take l r b hf hb ht =>
    right
    exact Pipeline.Step.take (pools g blocks s) l r b hb ht
  | encode l r k es hf hb hl hc =>
    right
    have := Pipeline.Step.encode (z := g.z) (c := g.c) (threads := g.threads) (pools g blocks s) l r k es hb
    simpa [pools, blobs] using this
  | writeHeader rest hf hb =>
    left
    simp [pools, hb, blobs]
  | write k b rest w hf hb hw =>
    right
    have := Pipeline.Step.write (z := g.z) (c := g.c) (threads := g.threads) (pools g blocks s) k b (blobs rest) (by simp [pools, hb, blobs])
    simpa [pools, hw] using this
  | wait k b rest hf hb hw hn =>
    right
    have := Pipeline.Step.write (z := g.z) (c := g.c) (threads := g.threads) (pools g blocks s) k b (blobs rest) (by simp [pools, hb, blobs])
    simpa [pools, hw, writeReady, hn] using this
  | writePanic k b rest hf hb hw hn => left; rfl

theorem steps_pools {g : Config} (hF : 0 < g.blockSize) {ops : List Op} {s : ParSystem} (hs : Steps g (init ops) s) {o o' : Orderer}
    (hr : Orderer.run g.S g.bufferSize g.blockSize {} (writes ops) = .ok o) (hl : o.FlushAll g.S g.blockSize o') :
    Pipeline.Steps g.z g.c g.threads (Pipeline.init g.z g.info g.c o'.blocks) (pools g o'.blocks s) := by
  induction hs with
  | refl => exact .refl
  | tail h hs ih =>
    rcases step_pools (phase_prefix hF (steps_phase h).1 hr hl) hs with e | e
    · rw [e]; exact ih
    · exact ih.tail e

/-! ## The header first -/

/-- A program that begins with `write_header` never writes a block before the header. -/
def Headed (ops : List Op) (s : ParSystem) : Prop :=
  s.writer.isSome = true ∨ (∃ r, s.writeQueue = .header :: r) ∨ s = init ops

theorem step_headed {g : Config} {ops : List Op} {s t : ParSystem} (h : Headed (.header :: ops) s) (hs : Step g s t) : Headed (.header :: ops) t := by
  rcases h with h | ⟨r, h⟩ | rfl
  · left
    cases hs <;> first | exact h | rfl
  · cases hs with
    | header ops' hf h0 ho hc => exact .inr (.inl ⟨r ++ [.header], by simp [h]⟩)
    | encode l r' k es hf hb hl hc => exact .inr (.inl ⟨r ++ [.blob k ((FileBlock.data es).serialize g.z g.c)], by simp [h]⟩)
    | writeHeader rest hf hb => left; rfl
    | write k b rest w hf hb hw => left; rfl
    | wait k b rest hf hb hw hn => simp [h] at hb
    | writePanic k b rest hf hb hw hn => simp [h] at hb
    | call | close | joinOrdering | joinEncoding | exec | execPanic | flushStart | flushRound | flushEnd | submit | take => exact .inr (.inl ⟨r, h⟩)
    | joinWriting hf h3 hq => exact .inr (.inl ⟨r, h⟩)
  · cases hs with
    | header ops' hf h0 ho hc => exact .inr (.inl ⟨[], by simp [init]⟩)
    | call c ops' hf h0 ho hc => simp [init] at ho
    | close hf h0 ho hc => simp [init] at ho
    | joinOrdering hf h1 => simp [init] at h1
    | joinEncoding hf h1 => simp [init] at h1
    | joinWriting hf h1 => simp [init] at h1
    | exec c rest o hf hq => simp [init] at hq
    | execPanic c rest hf hq => simp [init] at hq
    | flushStart rest hf hq => simp [init] at hq
    | flushRound hf hfl => simp [init] at hfl
    | flushEnd hf hfl => simp [init] at hfl
    | submit b hf hb => simp [init] at hb
    | take l r b hf hb => simp [init] at hb
    | encode l r k es hf hb => simp [init] at hb
    | writeHeader rest hf hb => simp [init] at hb
    | write k b rest w hf hb => simp [init] at hb
    | wait k b rest hf hb => simp [init] at hb
    | writePanic k b rest hf hb => simp [init] at hb

theorem steps_headed {g : Config} {ops : List Op} {s : ParSystem} (hs : Steps g (init (.header :: ops)) s) : Headed (.header :: ops) s := by
  induction hs with
  | refl => exact .inr (.inr rfl)
  | tail _ hs ih => exact step_headed ih hs

/-! ## Progress and termination -/

theorem progress {g : Config} (hF : 0 < g.blockSize) (hcap : 0 < g.cap) (hthr : 0 < g.threads) {calls : List WriteCall} {s : ParSystem}
    (h : Phase g calls s) (hi : Staged s) (hf : s.failed = false) (hst : s.stage ≠ 4) : ∃ t, Step g s t := by
  obtain ⟨i1, i2, i3, i4⟩ := hi
  have h4 : s.stage ≤ 4 := by
    cases h with
    | «open» pre h0 => omega
    | closing pre cs h1 => omega
    | flushing o h1 => omega
    | flushed o _ h4 => exact h4
  cases hwq : s.writeQueue with
  | cons x rest =>
    cases x with
    | header => exact ⟨_, .writeHeader s rest hf hwq⟩
    | blob k b =>
      cases hw : s.writer with
      | none =>
        by_cases hn : mapRemove s.next (mapInsert k b s.held) = none
        · exact ⟨_, .wait s k b rest hf hwq hw hn⟩
        · exact ⟨_, .writePanic s k b rest hf hwq hw hn⟩
      | some w => exact ⟨_, .write s k b rest w hf hwq hw⟩
  | nil =>
    have hcw : s.writeQueue.length < g.cap := by simp [hwq, hcap]
    cases hen : s.encoding with
    | cons x rest =>
      refine ⟨_, .encode s [] rest x.1 x.2 hf hen ?_ hcw⟩
      by_contra hn
      have := (i3 (by omega)).2
      simp [hen] at this
    | nil =>
      cases hq : s.queue with
      | cons b rest => exact ⟨_, .take s [] rest b hf hq (by simp [hen, hthr])⟩
      | nil =>
        by_cases hr : s.Ready
        · by_cases hfl : s.flushing = true
          · by_cases hb : s.orderer.buffer = []
            · exact ⟨_, .flushEnd s hf hfl hr hb⟩
            · exact ⟨_, .flushRound s hf hfl hr hb⟩
          · have hfl : s.flushing = false := by simpa using hfl
            cases hoq : s.orderQueue with
            | cons x rest =>
              cases x with
              | flush => exact ⟨_, .flushStart s rest hf hoq hfl hr⟩
              | exec c =>
                by_cases hall : ∀ e ∈ submitted [c], s.orderer.assertOrder e = true
                · exact ⟨_, .exec s c rest _ hf hoq hfl hr ((exec_iff g.S g.bufferSize g.blockSize s.orderer c).1 hall)⟩
                · refine ⟨_, .execPanic s c rest hf hoq hfl hr ((exec_iff g.S g.bufferSize g.blockSize s.orderer c).2 ?_)⟩
                  simpa using hall
            | nil =>
              have hco : s.orderQueue.length < g.cap := by simp [hoq, hcap]
              have : s.stage = 0 ∨ s.stage = 1 ∨ s.stage = 2 ∨ s.stage = 3 := by omega
              rcases this with h0 | h1 | h2 | h3
              · cases ho : s.ops with
                | nil => exact ⟨_, .close s hf h0 ho hco⟩
                | cons x ops =>
                  cases x with
                  | header => exact ⟨_, .header s ops hf h0 ho hcw⟩
                  | write c => exact ⟨_, .call s c ops hf h0 ho hco⟩
              · exact ⟨_, .joinOrdering s hf h1 hoq hfl hr⟩
              · exact ⟨_, .joinEncoding s hf h2 hq hen⟩
              · exact ⟨_, .joinWriting s hf h3 hwq⟩
        · have hlt : s.sent < s.orderer.blocks.length := by
            unfold Ready at hr; omega
          refine ⟨_, .submit s _ hf (List.getElem?_eq_getElem hlt) ?_ (by simp [hq, hcap])⟩
          by_contra hn
          exact hr (i2 (by omega))

/-- Work of an operation of the program. -/
def opWork : Op → Nat
  | .header => 2
  | .write c => 6 * (submitted [c]).length + 2

/-- Work of a command of the ordering thread. -/
def cmdWork : OrderCmd → Nat
  | .exec c => 6 * (submitted [c]).length + 1
  | .flush => 2

/-- The work left. -/
def work (s : ParSystem) : Nat :=
  (s.ops.map opWork).sum + (s.orderQueue.map cmdWork).sum + 3 * (4 - s.stage) + 6 * s.orderer.buffer.length + (if s.flushing then 1 else 0) +
    4 * (s.orderer.blocks.length - s.sent) + 3 * s.queue.length + 2 * s.encoding.length + s.writeQueue.length + (if s.failed then 0 else 1)

theorem emit_work {F : Nat} (hF : 0 < F) (o : Orderer) (hb : o.buffer ≠ []) :
    (o.emit F).blocks.length = o.blocks.length + 1 ∧ (o.emit F).buffer.length < o.buffer.length := by
  have h1 := congrArg List.length (split_append F o.buffer)
  have h2 := List.length_pos_of_ne_nil (split_ne_nil hF hb)
  simp only [Orderer.emit]
  simp at h1 ⊢
  omega

theorem exec_work {S : StdSort} {B F : Nat} (hF : 0 < F) {o o' : Orderer} {c : WriteCall} (h : o.exec S B F c = .ok o') :
    6 * o'.buffer.length + 4 * o'.blocks.length ≤ 6 * (o.buffer.length + (submitted [c]).length) + 4 * o.blocks.length := by
  obtain ⟨-, rfl⟩ := exec_ok h
  unfold Orderer.checkFull
  split
  · rename_i hl
    simp only [Orderer.flushTop]
    have hlen := (S.perm (o.buffer ++ submitted [c])).length_eq
    have hb : S.sort (o.buffer ++ submitted [c]) ≠ [] := by
      intro h0
      rw [h0] at hlen
      simp at hlen hl
      omega
    have := emit_work hF { o with buffer := S.sort (o.buffer ++ submitted [c]) } hb
    simp at this hlen
    omega
  · simp

theorem step_work {g : Config} (hF : 0 < g.blockSize) {s t : ParSystem} (hi : Staged s) (hs : Step g s t) : work t < work s := by
  cases hs with
  | header ops hf h0 ho hc => simp [work, ho, opWork]; omega
  | call c ops hf h0 ho hc => simp [work, ho, opWork, cmdWork]; omega
  | close hf h0 ho hc => simp [work, h0, cmdWork]; omega
  | joinOrdering hf h1 hq hfl hr => simp [work, h1]
  | joinEncoding hf h2 hq he => simp [work, h2]
  | joinWriting hf h3 hq => simp [work, h3]
  | exec c rest o hf hq hfl hr ho =>
    have h1 := exec_work hF ho
    have h2 := (exec_blocks ho).length_le
    unfold Ready at hr
    simp [work, hq, cmdWork]
    omega
  | execPanic c rest hf hq hfl hr ho => simp [work, hf]
  | flushStart rest hf hq hfl hr =>
    have hlen := (g.S.perm s.orderer.buffer).length_eq
    simp [work, hq, cmdWork, hfl, hlen]; omega
  | flushRound hf hfl hr hb =>
    have := emit_work hF s.orderer hb
    unfold Ready at hr
    simp only [work, this.1]
    omega
  | flushEnd hf hfl hr hb => simp [work, hfl]
  | submit b hf hb hl hc =>
    obtain ⟨hlt, -⟩ := List.getElem?_eq_some_iff.mp hb
    simp [work]; omega
  | take l r b hf hb ht => simp [work, hb]; omega
  | encode l r k es hf hb hl hc => simp [work, hb]; omega
  | writeHeader rest hf hb => simp [work, hb]
  | write k b rest w hf hb hw => simp [work, hb]
  | wait k b rest hf hb hw hn => simp [work, hb]
  | writePanic k b rest hf hb hw hn => simp [work, hf]

/-- No thread panics when all calls succeed and the program begins with `write_header`. -/
theorem never_failed {g : Config} {ops : List Op} {o : Orderer} (hr : Orderer.run g.S g.bufferSize g.blockSize {} (writes ops) = .ok o)
    {s : ParSystem} (hs : Steps g (init (.header :: ops)) s) : s.failed = false := by
  induction hs with
  | refl => rfl
  | @tail s1 _ h hs ih =>
    have hp := (steps_phase h).1
    have hw : writes (.header :: ops) = writes ops := by simp [writes, callsOf]
    rw [hw] at hp
    cases hs with
    | writePanic k b rest hf hb hw hn =>
      exfalso
      rcases steps_headed h with h | ⟨r, h⟩ | rfl
      · simp [hw] at h
      · simp [hb] at h
      · simp [init] at hb
    | execPanic c rest hf hq hfl hrd ho =>
      exfalso
      have key : ∀ pre post, writes ops = pre ++ c :: post →
          ∀ o1, Orderer.run g.S g.bufferSize g.blockSize {} pre = .ok o1 → o1.exec g.S g.bufferSize g.blockSize c = .panic → False := by
        intro pre post he o1 h1 h2
        rw [he, run_append, h1] at hr
        simp [run_cons, h2] at hr
      cases hp with
      | «open» pre h0 _ hq' hc hpr => exact key pre (execs rest ++ writes s1.ops) (by rw [hc, hq]; simp [execs]) _ hpr ho
      | closing pre cs h1 _ hq' hops hc hpr =>
        cases cs with
        | nil => simp [hq] at hq'
        | cons c' cs =>
          simp [hq] at hq'
          obtain ⟨rfl, rfl⟩ := hq'
          exact key pre cs hc _ hpr ho
      | flushing o1 h1 _ hq' => simp [hq] at hq'
      | flushed o1 h1 h4 _ hq' => simp [hq] at hq'
    | header | call | close | joinOrdering | joinEncoding | joinWriting | exec | flushStart | flushRound | flushEnd | submit | take | encode | writeHeader | write | wait =>
      assumption

/-- Without `write_header` there is no file, and nothing is written. -/
theorem no_header {g : Config} {ops : List Op} (h : .header ∉ ops) {s : ParSystem} (hs : Steps g (init ops) s) :
    .header ∉ s.ops ∧ s.writer = none ∧ (∀ x ∈ s.writeQueue, ∃ k b, x = .blob k b) ∧ s.next = 1 := by
  induction hs with
  | refl => exact ⟨h, rfl, by simp [init], rfl⟩
  | @tail s1 t _ hs ih =>
    obtain ⟨i1, i2, i3, i4⟩ := ih
    cases hs with
    | header ops' hf h0 ho hc => simp [ho] at i1
    | call c ops' hf h0 ho hc => exact ⟨by simp [ho] at i1; exact i1, i2, i3, i4⟩
    | encode l r k es hf hb hl hc =>
      refine ⟨i1, i2, ?_, i4⟩
      intro x hx
      simp only [List.mem_append, List.mem_singleton] at hx
      rcases hx with hx | rfl
      · exact i3 x hx
      · exact ⟨_, _, rfl⟩
    | writeHeader rest hf hb =>
      obtain ⟨k, b, hk⟩ := i3 .header (by simp [hb])
      exact absurd hk (by simp)
    | write k b rest w hf hb hw => simp [i2] at hw
    | wait k b rest hf hb hw hn => exact ⟨i1, i2, fun x hx => i3 x (by simp [hb, hx]), i4⟩
    | close | joinOrdering | joinEncoding | joinWriting | exec | execPanic | flushStart | flushRound | flushEnd | submit | take | writePanic =>
      exact ⟨i1, i2, i3, i4⟩

end ParSystem
end OsmIo
